import Verif.Query.SegmentAgg
import Verif.Query.SegmentProps

/-! Property C155: segments by an aggregate of a property. -/

namespace OptiPrism.Query

/-- Specification: the numbers of a user in the period that pass the filter. -/
def numbers (tr : TimeRange) (rows : List ValRow) (u : Int) : List Int :=
  (rows.filter fun r => decide (Hit tr r.toSRow) && r.user == some u).filterMap (·.val)

/-- Specification: what the aggregate of some numbers is. -/
def Measures : SegFn → List Int → Int → Prop
  | .sum, vs, x => x = vs.sum
  | .count, vs, x => x = vs.length
  | .min, vs, x => x ∈ vs ∧ ∀ y ∈ vs, x ≤ y
  | .max, vs, x => x ∈ vs ∧ ∀ y ∈ vs, y ≤ x
  | .avg, vs, x => x = vs.sum.tdiv vs.length

/-- Specification: the user has numbers, and their aggregate compares. -/
def InSegment (f : SegFn) (op : SegOp) (right : Int) (vs : List Int) : Prop := vs ≠ [] ∧ ∃ x, Measures f vs x ∧ Compares op x right

/-! ## The accumulators -/

def accOf (f : SegFn) (vs : List Int) : SegAcc := vs.foldl SegAcc.add f.new

theorem add_reset (a : SegAcc) (v : Int) : (a.add v).reset = a.reset := by cases a <;> rfl

theorem accOf_reset (f : SegFn) (vs : List Int) : (accOf f vs).reset = f.new := by
  have : ∀ (vs : List Int) (a : SegAcc), (vs.foldl SegAcc.add a).reset = a.reset := by
    intro vs
    induction vs with
    | nil => intro a; rfl
    | cons v vs ih => intro a; rw [List.foldl_cons, ih, add_reset]
  unfold accOf
  rw [this]
  cases f <;> rfl

theorem accOf_append (f : SegFn) (vs : List Int) (v : Int) : accOf f (vs ++ [v]) = (accOf f vs).add v := by
  unfold accOf
  rw [List.foldl_append]
  rfl

theorem fold_sum (vs : List Int) : ∀ s, vs.foldl SegAcc.add (.sum s) = .sum (s + vs.sum) := by
  induction vs with
  | nil => intro s; simp
  | cons v vs ih => intro s; rw [List.foldl_cons, List.sum_cons, ← Int.add_assoc]; exact ih _

theorem fold_number (vs : List Int) : ∀ n, vs.foldl SegAcc.add (.count n) = .count (n + vs.length) := by
  induction vs with
  | nil => intro s; simp
  | cons v vs ih =>
    intro s
    rw [List.foldl_cons]
    refine (ih _).trans ?_
    rw [List.length_cons]
    congr 1
    omega

theorem fold_avg (vs : List Int) : ∀ s c, vs.foldl SegAcc.add (.avg s c) = .avg (s + vs.sum) (c + vs.length) := by
  induction vs with
  | nil => intro s c; simp
  | cons v vs ih =>
    intro s c
    rw [List.foldl_cons]
    refine (ih _ _).trans ?_
    rw [List.length_cons, List.sum_cons]
    congr 1 <;> omega

theorem fold_min (vs : List Int) : ∀ m, ∃ x, vs.foldl SegAcc.add (.min m) = .min x ∧ x ≤ m ∧ (∀ y ∈ vs, x ≤ y) ∧ (x = m ∨ x ∈ vs) := by
  induction vs with
  | nil => intro m; exact ⟨m, rfl, Int.le_refl _, by simp, .inl rfl⟩
  | cons v vs ih =>
    intro m
    obtain ⟨x, h1, h2, h3, h4⟩ := ih (if v < m then v else m)
    refine ⟨x, h1, ?_, ?_, ?_⟩
    · split at h2 <;> omega
    · intro y hy
      rcases List.mem_cons.mp hy with rfl | hy
      · split at h2 <;> omega
      · exact h3 y hy
    · rcases h4 with h4 | h4
      · split at h4
        · exact .inr (by simp [h4])
        · exact .inl h4
      · exact .inr (by simp [h4])

theorem fold_max (vs : List Int) : ∀ m, ∃ x, vs.foldl SegAcc.add (.max m) = .max x ∧ m ≤ x ∧ (∀ y ∈ vs, y ≤ x) ∧ (x = m ∨ x ∈ vs) := by
  induction vs with
  | nil => intro m; exact ⟨m, rfl, Int.le_refl _, by simp, .inl rfl⟩
  | cons v vs ih =>
    intro m
    obtain ⟨x, h1, h2, h3, h4⟩ := ih (if v > m then v else m)
    refine ⟨x, h1, ?_, ?_, ?_⟩
    · split at h2 <;> omega
    · intro y hy
      rcases List.mem_cons.mp hy with rfl | hy
      · split at h2 <;> omega
      · exact h3 y hy
    · rcases h4 with h4 | h4
      · split at h4
        · exact .inr (by simp [h4])
        · exact .inl h4
      · exact .inr (by simp [h4])

/-- A number of type `i128`. -/
def Fits128 (v : Int) : Prop := i128Min ≤ v ∧ v ≤ i128Max

theorem accOf_result {f : SegFn} {vs : List Int} (hn : vs ≠ []) (hv : ∀ v ∈ vs, Fits128 v) : ∃ x, (accOf f vs).result = some x ∧ ∀ y, Measures f vs y ↔ y = x := by
  cases f with
  | sum => exact ⟨_, by rw [accOf, SegFn.new, fold_sum]; rfl, fun y => by simp [Measures]⟩
  | count => exact ⟨_, by rw [accOf, SegFn.new, fold_number]; rfl, fun y => by simp [Measures]⟩
  | avg =>
    refine ⟨vs.sum.tdiv vs.length, ?_, fun y => Iff.rfl⟩
    rw [accOf, SegFn.new, fold_avg]
    have : vs.length ≠ 0 := fun h => hn (List.length_eq_zero_iff.mp h)
    unfold SegAcc.result
    dsimp only
    rw [if_neg (by omega)]
    simp
  | min =>
    obtain ⟨x, h1, h2, h3, h4⟩ := fold_min vs i128Max
    have hm : x ∈ vs := by
      rcases h4 with h4 | h4
      · obtain ⟨v, hmem⟩ := List.exists_mem_of_ne_nil vs hn
        have := h3 v hmem
        have := (hv v hmem).2
        have : x = v := by omega
        rw [this]; exact hmem
      · exact h4
    refine ⟨x, by rw [accOf, SegFn.new, h1]; rfl, fun y => ⟨fun ⟨a, b⟩ => ?_, fun e => e ▸ ⟨hm, h3⟩⟩⟩
    have := b x hm
    have := h3 y a
    omega
  | max =>
    obtain ⟨x, h1, h2, h3, h4⟩ := fold_max vs i128Min
    have hm : x ∈ vs := by
      rcases h4 with h4 | h4
      · obtain ⟨v, hmem⟩ := List.exists_mem_of_ne_nil vs hn
        have := h3 v hmem
        have := (hv v hmem).1
        have : x = v := by omega
        rw [this]; exact hmem
      · exact h4
    refine ⟨x, by rw [accOf, SegFn.new, h1]; rfl, fun y => ⟨fun ⟨a, b⟩ => ?_, fun e => e ▸ ⟨hm, h3⟩⟩⟩
    have := b x hm
    have := h3 y a
    omega

/-! ## The rows -/

/-- The numbers the loop takes of a user. -/
def taken (tr : TimeRange) (nul : Int) (rows : List ValRow) (u : Int) : List Int :=
  (rows.filter fun r => decide (Hit tr r.toSRow) && r.user == some u).map (·.val.getD nul)

theorem taken_append (tr : TimeRange) (nul : Int) (P : List ValRow) (r : ValRow) (x : Int) :
    taken tr nul (P ++ [r]) x = taken tr nul P x ++ if Hit tr r.toSRow ∧ r.user = some x then [r.val.getD nul] else [] := by
  unfold taken
  rw [List.filter_append, List.map_append]
  congr 1
  by_cases h : Hit tr r.toSRow ∧ r.user = some x
  · simp [h.1, h.2]
  · rw [if_neg h, List.filter_cons_of_neg (by simpa using h)]
    rfl

/-- Rows sorted by user, every row with a user. -/
def PByUser (rows : List ValRow) : Prop := rows.Pairwise fun a b => ∃ u v, a.user = some u ∧ b.user = some v ∧ u ≤ v

def entryFor (f : SegFn) (op : SegOp) (right : Int) (tr : TimeRange) (nul : Int) (rows : List ValRow) (u : Int) : Option (Option Int) :=
  (accOf f (taken tr nul rows u)).result.map fun x => if op.holds x right then some u else none

/-- The state after some rows, the first of which belongs to `g`. -/
structure VInv (f : SegFn) (op : SegOp) (right : Int) (tr : TimeRange) (nul g : Int) (P : List ValRow) (s : PropState) (us : List Int) : Prop where
  started : s.first = false
  asc : (us ++ [s.last]).Pairwise (· < ·)
  mem : ∀ x, x ∈ us ++ [s.last] ↔ x = g ∨ taken tr nul P x ≠ []
  res : us.map (entryFor f op right tr nul P) = s.res.map some
  agg : s.agg = accOf f (taken tr nul P s.last)

theorem propUse_miss (op : SegOp) (right : Int) (tr : TimeRange) (nul : Int) (s : PropState) (r : ValRow) (h : ¬ Hit tr r.toSRow) : propUse op right tr nul s r = some s := by
  have := check_iff tr r.toSRow
  rw [decide_eq_false h] at this
  unfold propUse
  cases hc : tr.check r.ts
  · rfl
  · rw [hc, Bool.true_and] at this
    rw [this]; rfl

theorem propUse_hit (op : SegOp) (right : Int) (tr : TimeRange) (nul : Int) (s : PropState) (r : ValRow) (u : Int) (h : Hit tr r.toSRow) (hu : r.user = some u) :
    propUse op right tr nul s r =
      if s.last ≠ u then
        (s.entry op right).map fun e => { s with res := s.res ++ [e], last := u, agg := s.agg.reset.add (r.val.getD nul) }
      else some { s with agg := s.agg.add (r.val.getD nul) } := by
  have := check_iff tr r.toSRow
  rw [decide_eq_true h, Bool.and_eq_true] at this
  unfold propUse
  rw [this.1, this.2, hu]; rfl

variable {f : SegFn} {op : SegOp} {right : Int} {tr : TimeRange} {nul g : Int}

theorem accOf_some {vs : List Int} (h : f = .avg → vs ≠ []) : ∃ x, (accOf f vs).result = some x := by
  cases f with
  | sum => exact ⟨_, by rw [accOf, SegFn.new, fold_sum]; rfl⟩
  | count => exact ⟨_, by rw [accOf, SegFn.new, fold_number]; rfl⟩
  | min => obtain ⟨x, h1, -⟩ := fold_min vs i128Max; exact ⟨x, by rw [accOf, SegFn.new, h1]; rfl⟩
  | max => obtain ⟨x, h1, -⟩ := fold_max vs i128Min; exact ⟨x, by rw [accOf, SegFn.new, h1]; rfl⟩
  | avg =>
    have : vs.length ≠ 0 := fun e => h rfl (List.length_eq_zero_iff.mp e)
    rw [accOf, SegFn.new, fold_avg]
    unfold SegAcc.result
    dsimp only
    rw [if_neg (by omega)]
    exact ⟨_, rfl⟩

theorem propUse_inv {P : List ValRow} {s : PropState} {us : List Int} {r : ValRow} {u : Int} (hu : r.user = some u) (h : VInv f op right tr nul g P s us)
    (hmax : ∀ x ∈ us ++ [s.last], x ≤ u) (hg : f = .avg → u ≠ g → taken tr nul P g ≠ []) :
    ∃ s' us', propUse op right tr nul s r = some s' ∧ VInv f op right tr nul g (P ++ [r]) s' us' ∧ ∀ x ∈ us' ++ [s'.last], x ≤ u := by
  obtain ⟨h1, h2, h3, h4, h5⟩ := h
  by_cases hh : Hit tr r.toSRow
  · have ht : ∀ x, x ≠ u → taken tr nul (P ++ [r]) x = taken tr nul P x := by
      intro x hx
      rw [taken_append, if_neg, List.append_nil]
      rintro ⟨_, e⟩; rw [hu] at e; cases e; exact hx rfl
    have htu : taken tr nul (P ++ [r]) u = taken tr nul P u ++ [r.val.getD nul] := by rw [taken_append, if_pos ⟨hh, hu⟩]
    rw [propUse_hit op right tr nul s r u hh hu]
    by_cases hl : s.last = u
    · rw [if_neg (by simpa using hl)]
      refine ⟨_, us, rfl, ⟨h1, h2, ?_, ?_, ?_⟩, ?_⟩
      · intro x
        show x ∈ us ++ [s.last] ↔ _
        rw [h3 x]
        by_cases hx : x = u
        · subst hx
          constructor
          · intro _; exact .inr (by rw [htu]; simp)
          · intro _; exact (h3 x).mp (by rw [hl]; simp)
        · rw [ht x hx]
      · show us.map _ = s.res.map some
        rw [← h4]
        apply List.map_congr_left
        intro x hx
        have hxl : x < s.last := by
          rw [List.pairwise_append] at h2
          exact h2.2.2 x hx _ (by simp)
        unfold entryFor
        rw [ht x (by omega)]
      · show s.agg.add _ = accOf f (taken tr nul (P ++ [r]) s.last)
        rw [h5, hl, htu, accOf_append]
      · intro x hx; exact hmax x hx
    · rw [if_pos hl]
      have hlt : ∀ x ∈ us ++ [s.last], x < u := by
        intro x hx
        rw [List.pairwise_append] at h2
        have hle : x ≤ s.last := by
          rcases List.mem_append.mp hx with h | h
          · have := h2.2.2 x h _ (by simp : s.last ∈ [s.last]); omega
          · rw [List.mem_singleton.mp h]; omega
        have := hmax s.last (by simp)
        omega
      have hug : u ≠ g := by
        have := hlt g ((h3 g).mpr (.inl rfl))
        omega
      have hgood : f = .avg → taken tr nul P s.last ≠ [] := by
        intro e
        rcases (h3 s.last).mp (by simp) with h | h
        · rw [h]; exact hg e hug
        · exact h
      obtain ⟨x, hx⟩ := accOf_some hgood
      have he : s.entry op right = some (if op.holds x right then some s.last else none) := by
        unfold PropState.entry
        rw [h5, hx]; rfl
      have he' : entryFor f op right tr nul P s.last = some (if op.holds x right then some s.last else none) := by
        unfold entryFor
        rw [hx]; rfl
      rw [he]
      refine ⟨_, us ++ [s.last], rfl, ⟨h1, ?_, ?_, ?_, ?_⟩, ?_⟩
      · show ((us ++ [s.last]) ++ [u]).Pairwise _
        rw [List.pairwise_append]
        refine ⟨h2, by simp, ?_⟩
        intro a ha b hb
        rw [List.mem_singleton.mp hb]
        exact hlt a ha
      · intro x
        show x ∈ (us ++ [s.last]) ++ [u] ↔ _
        rw [List.mem_append, h3 x]
        by_cases hx : x = u
        · subst hx
          constructor
          · intro _; exact .inr (by rw [htu]; simp)
          · intro _; exact .inr (by simp)
        · rw [ht x hx]
          constructor
          · rintro (h | h)
            · exact h
            · exact absurd (List.mem_singleton.mp h) hx
          · exact .inl
      · show (us ++ [s.last]).map _ = (s.res ++ [_]).map some
        rw [List.map_append, List.map_append, ← h4]
        congr 1
        · apply List.map_congr_left
          intro x hx
          have := hlt x (List.mem_append_left _ hx)
          unfold entryFor
          rw [ht x (by omega)]
        · have := hlt s.last (by simp)
          show [entryFor f op right tr nul (P ++ [r]) s.last] = [some _]
          rw [← he']
          unfold entryFor
          rw [ht s.last (by omega)]
      · show s.agg.reset.add _ = accOf f (taken tr nul (P ++ [r]) u)
        have h0 : taken tr nul P u = [] := by
          cases hz : taken tr nul P u with
          | nil => rfl
          | cons a l =>
            have := hlt u ((h3 u).mpr (.inr (by rw [hz]; simp)))
            omega
        rw [htu, h0, h5, accOf_reset]
        rfl
      · intro x hx
        rcases List.mem_append.mp hx with h | h
        · have := hlt x h; omega
        · rw [List.mem_singleton.mp h]; exact Int.le_refl u
  · have ht : ∀ x, taken tr nul (P ++ [r]) x = taken tr nul P x := by
      intro x
      rw [taken_append, if_neg, List.append_nil]
      rintro ⟨e, _⟩; exact hh e
    refine ⟨s, us, propUse_miss op right tr nul s r hh, ⟨h1, h2, ?_, ?_, ?_⟩, hmax⟩
    · intro x; rw [h3 x, ht x]
    · rw [← h4]
      apply List.map_congr_left
      intro x _
      unfold entryFor; rw [ht x]
    · rw [h5, ht]

theorem taken_split (P Q : List ValRow) (x : Int) : taken tr nul (P ++ Q) x = taken tr nul P x ++ taken tr nul Q x := by
  unfold taken
  rw [List.filter_append, List.map_append]

theorem taken_none {Q : List ValRow} {x : Int} (h : ∀ r ∈ Q, r.user ≠ some x) : taken tr nul Q x = [] := by
  unfold taken
  rw [List.filter_eq_nil_iff.mpr, List.map_nil]
  intro r hr
  have := h r hr
  simp [this]

theorem foldlM_prop (rows : List ValRow) : ∀ (P : List ValRow) (s : PropState) (us : List Int), VInv f op right tr nul g P s us → PByUser rows →
    (∀ r ∈ rows, ∃ u, r.user = some u ∧ ∀ x ∈ us ++ [s.last], x ≤ u) → (f = .avg → taken tr nul (P ++ rows) g ≠ []) →
    ∃ s' us', rows.foldlM (propRow op right tr nul) s = some s' ∧ VInv f op right tr nul g (P ++ rows) s' us' := by
  induction rows with
  | nil => intro P s us h _ _ _; exact ⟨s, us, rfl, by simpa using h⟩
  | cons r rows ih =>
    intro P s us h hs hb hg
    obtain ⟨u, hu, hmax⟩ := hb r (by simp)
    have hs' := List.pairwise_cons.mp hs
    have hge : ∀ q ∈ rows, ∃ v, q.user = some v ∧ u ≤ v := by
      intro q hq
      obtain ⟨a, b, ha, hb', hab⟩ := hs'.1 q hq
      rw [hu] at ha; cases ha
      exact ⟨b, hb', hab⟩
    have hpre : f = .avg → u ≠ g → taken tr nul P g ≠ [] := by
      intro e hug h0
      apply hg e
      rw [taken_split, h0, List.nil_append]
      apply taken_none
      intro q hq hqg
      have hgu : g ≤ u := hmax g ((h.mem g).mpr (.inl rfl))
      rcases List.mem_cons.mp hq with rfl | hq
      · rw [hu] at hqg; cases hqg; exact hug rfl
      · obtain ⟨v, hv, huv⟩ := hge q hq
        rw [hv] at hqg; cases hqg
        omega
    obtain ⟨s1, us1, e1, i1, m1⟩ := propUse_inv hu h hmax hpre
    obtain ⟨s2, us2, e2, i2⟩ := ih (P ++ [r]) s1 us1 i1 hs'.2 (by
      intro q hq
      obtain ⟨v, hv, huv⟩ := hge q hq
      exact ⟨v, hv, fun x hx => Int.le_trans (m1 x hx) huv⟩) (by simpa using hg)
    refine ⟨s2, us2, ?_, by simpa using i2⟩
    rw [List.foldlM_cons]
    have : propRow op right tr nul s r = some s1 := by
      unfold propRow
      rw [h.started]; exact e1
    rw [this]; exact e2

theorem segProp_flatten (batches : List (List ValRow)) :
    ∀ s, batches.foldlM (fun s (rows : List ValRow) => rows.foldlM (propRow op right tr nul) s) s = batches.flatten.foldlM (propRow op right tr nul) s := by
  induction batches with
  | nil => intro s; rfl
  | cons b bs ih =>
    intro s
    rw [List.foldlM_cons, List.flatten_cons, List.foldlM_append]
    congr 1
    funext s; exact ih s

/-- The entries: in ascending order and once each, the first user and every user with a row that counts. -/
theorem segProp_entries (batches : List (List ValRow)) (r0 : ValRow) (rest : List ValRow) (hb : batches.flatten = r0 :: rest) (hf : r0.user = some g)
    (hs : PByUser batches.flatten) (hg : f = .avg → taken tr nul batches.flatten g ≠ []) :
    ∃ (us : List Int) (res : List (Option Int)), us.Pairwise (· < ·) ∧ (∀ u, u ∈ us ↔ u = g ∨ taken tr nul batches.flatten u ≠ []) ∧
      segProp f op right tr nul batches = some res ∧ us.map (entryFor f op right tr nul batches.flatten) = res.map some := by
  unfold segProp
  rw [segProp_flatten, hb, List.foldlM_cons]
  rw [hb] at hs hg
  have hs' := List.pairwise_cons.mp hs
  have i0 : VInv f op right tr nul g [] { PropState.init f with first := false, last := g } [] :=
    ⟨rfl, by simp, by intro x; simp [taken], rfl, rfl⟩
  obtain ⟨s1, us1, e1, i1, m1⟩ := propUse_inv hf i0 (by intro x hx; simp at hx; omega) (fun _ h => absurd rfl h)
  obtain ⟨s2, us2, e2, i2⟩ := foldlM_prop rest ([] ++ [r0]) s1 us1 i1 hs'.2 (by
    intro q hq
    obtain ⟨a, b, ha, hb', hab⟩ := hs'.1 q hq
    rw [hf] at ha; cases ha
    exact ⟨b, hb', fun x hx => Int.le_trans (m1 x hx) hab⟩) hg
  have e0 : propRow op right tr nul (PropState.init f) r0 = some s1 := by
    unfold propRow
    rw [hf]; exact e1
  have hgood : f = .avg → taken tr nul (r0 :: rest) s2.last ≠ [] := by
    intro e
    rcases (i2.mem s2.last).mp (by simp) with h | h
    · rw [h]; exact hg e
    · exact h
  obtain ⟨x, hx⟩ := accOf_some hgood
  refine ⟨us2 ++ [s2.last], s2.res ++ [if op.holds x right then some s2.last else none], i2.asc, fun u => (i2.mem u), ?_, ?_⟩
  · rw [e0]
    show Option.bind (rest.foldlM (propRow op right tr nul) s1) _ = _
    rw [e2]
    show (s2.entry op right).map _ = _
    unfold PropState.entry
    rw [i2.agg]
    show Option.map _ (Option.map _ (accOf f (taken tr nul (r0 :: rest) s2.last)).result) = _
    rw [hx]; rfl
  · rw [List.map_append, List.map_append]
    refine congr (congrArg _ i2.res) ?_
    show [entryFor f op right tr nul (r0 :: rest) s2.last] = _
    unfold entryFor
    rw [hx]; rfl

/-! ## The claim -/

theorem taken_numbers {rows : List ValRow} (hv : ∀ r ∈ rows, Hit tr r.toSRow → r.val ≠ none) (u : Int) : taken tr nul rows u = numbers tr rows u := by
  unfold taken numbers
  induction rows with
  | nil => rfl
  | cons r rows ih =>
    by_cases h : Hit tr r.toSRow ∧ r.user = some u
    · have hc : (decide (Hit tr r.toSRow) && r.user == some u) = true := by simp [h.1, h.2]
      rw [List.filter_cons, if_pos hc, List.map_cons, ih fun q hq => hv q (by simp [hq])]
      cases e : r.val with
      | none => exact absurd e (hv r (by simp) h.1)
      | some v => rw [List.filterMap_cons_some e]; rfl
    · have hc : ¬ (decide (Hit tr r.toSRow) && r.user == some u) = true := by simpa using h
      rw [List.filter_cons, if_neg hc, ih fun q hq => hv q (by simp [hq])]

/-- C155: the users in the segment are exactly those whose numbers have an aggregate that compares, each reported once, for every batching and whatever
the buffers have for NULL. `_partial`: only when the first user has a row that counts (`C155_first_violated`, `C155_average_violated`) and no row that
counts has NULL (`C155_null_violated`). -/
theorem C155_partial (batches : List (List ValRow)) (hs : PByUser batches.flatten)
    (hv : ∀ r ∈ batches.flatten, Hit tr r.toSRow → ∃ v, r.val = some v ∧ Fits128 v)
    (h0 : ∃ r0 rest u, batches.flatten = r0 :: rest ∧ r0.user = some u ∧ ∃ r ∈ batches.flatten, Hit tr r.toSRow ∧ r.user = some u) :
    ∃ res, segProp f op right tr nul batches = some res ∧ (res.filterMap id).Nodup ∧
      ∀ u, some u ∈ res ↔ InSegment f op right (numbers tr batches.flatten u) := by
  obtain ⟨r0, rest, g, hb, hf, r, hr, hh, hrg⟩ := h0
  have hn : ∀ r ∈ batches.flatten, Hit tr r.toSRow → r.val ≠ none := by
    intro r hr hh e
    obtain ⟨v, h, -⟩ := hv r hr hh
    rw [e] at h; cases h
  have hg : taken tr nul batches.flatten g ≠ [] := by
    intro e
    have : r ∈ batches.flatten.filter fun r => decide (Hit tr r.toSRow) && r.user == some g := List.mem_filter.mpr ⟨hr, by simp [hh, hrg]⟩
    rw [List.map_eq_nil_iff.mp e] at this
    cases this
  obtain ⟨us, res, u1, u2, u3, u4⟩ := segProp_entries (f := f) (op := op) (right := right) batches r0 rest hb hf hs (fun _ => hg)
  have hfit : ∀ u, ∀ v ∈ numbers tr batches.flatten u, Fits128 v := by
    intro u v h
    unfold numbers at h
    obtain ⟨q, hq, e⟩ := List.mem_filterMap.mp h
    obtain ⟨hq1, hq2⟩ := List.mem_filter.mp hq
    simp at hq2
    obtain ⟨w, h1, h2⟩ := hv q hq1 hq2.1
    rw [h1] at e; cases e
    exact h2
  have hent : ∀ u ∈ us, ∃ x, entryFor f op right tr nul batches.flatten u = some (if op.holds x right then some u else none) ∧
      ∀ y, Measures f (numbers tr batches.flatten u) y ↔ y = x := by
    intro u hu'
    have hne : numbers tr batches.flatten u ≠ [] := by
      rw [← taken_numbers (nul := nul) hn u]
      rcases (u2 u).mp hu' with rfl | h
      · exact hg
      · exact h
    obtain ⟨x, h1, h2⟩ := accOf_result (f := f) hne (hfit u)
    refine ⟨x, ?_, h2⟩
    unfold entryFor
    rw [taken_numbers hn u, h1]; rfl
  refine ⟨res, u3, ?_, ?_⟩
  · have key : ∀ (us : List Int) (res : List (Option Int)), (∀ u ∈ us, ∃ c : Bool, entryFor f op right tr nul batches.flatten u = some (if c then some u else none)) →
        us.map (entryFor f op right tr nul batches.flatten) = res.map some → (res.filterMap id).Sublist us := by
      intro us
      induction us with
      | nil =>
        intro res _ h
        cases res with
        | nil => simp
        | cons a l => cases h
      | cons u us ih =>
        intro res he h
        cases res with
        | nil => cases h
        | cons a l =>
          rw [List.map_cons, List.map_cons, List.cons.injEq] at h
          obtain ⟨c, hc⟩ := he u (by simp)
          have ih' := ih l (fun x hx => he x (by simp [hx])) h.2
          rw [hc] at h
          have ha : a = if c then some u else none := (Option.some.inj h.1).symm
          cases c with
          | true => rw [ha, if_pos rfl]; exact ih'.cons_cons u
          | false => rw [ha, if_neg (by simp)]; exact ih'.cons u
    exact (u1.imp (fun h => Int.ne_of_lt h)).sublist (key us res (fun u hu' => by obtain ⟨x, h, -⟩ := hent u hu'; exact ⟨_, h⟩) u4)
  · intro u
    have hmem : some u ∈ res ↔ some (some u) ∈ us.map (entryFor f op right tr nul batches.flatten) := by
      rw [u4]
      simp
    rw [hmem]
    constructor
    · intro h
      obtain ⟨w, hw, e⟩ := List.mem_map.mp h
      obtain ⟨x, h1, h2⟩ := hent w hw
      rw [h1] at e
      have e := Option.some.inj e
      split at e
      next hc =>
        cases e
        refine ⟨?_, x, (h2 x).mpr rfl, (holds_iff _ _ _).mp hc⟩
        rw [← taken_numbers (nul := nul) hn u]
        rcases (u2 u).mp hw with rfl | h
        · exact hg
        · exact h
      next => cases e
    · rintro ⟨hne, x, hx, hc⟩
      have hw : u ∈ us := (u2 u).mpr (.inr (by rw [taken_numbers hn u]; exact hne))
      obtain ⟨y, h1, h2⟩ := hent u hw
      have hy := (h2 x).mp hx
      subst hy
      refine List.mem_map.mpr ⟨u, hw, ?_⟩
      rw [h1, if_pos ((holds_iff _ _ _).mpr hc)]

/-- How the rows are cut into batches never matters. -/
theorem C155_batches (a b : List (List ValRow)) (h : a.flatten = b.flatten) : segProp f op right tr nul a = segProp f op right tr nul b := by
  unfold segProp
  rw [segProp_flatten, segProp_flatten, h]

/-! ## Where the code does otherwise -/

def exVal (u : Int) (hit : Bool) (v : Option Int) : ValRow := ⟨⟨some u, 5, some hit⟩, v⟩

/-- The first user never did it and is in the segment "minimum at least 10". -/
theorem C155_first_violated : segProp .min .gtEq 10 .none 0 [[exVal 1 false (some 3), exVal 2 true (some 12)]] = some [some 1, some 2] ∧
    ¬ InSegment .min .gtEq 10 (numbers .none [exVal 1 false (some 3), exVal 2 true (some 12)] 1) := by
  refine ⟨by decide +kernel, fun h => h.1 ?_⟩
  decide +kernel

/-- The average divides by zero if the first user never did it, and if nobody did. -/
theorem C155_average_violated : segProp .avg .gtEq 10 .none 0 [[exVal 1 false (some 3), exVal 2 true (some 12)]] = none ∧
    segProp .avg .gtEq 10 .none 0 [[exVal 1 false (some 3)]] = none ∧ segProp .avg .gtEq 10 .none 0 [] = none := by decide +kernel

/-- A row without the property counts as one with 0: the minimum of 7 is below 5. -/
theorem C155_null_violated : segProp .min .lt 5 .none 0 [[exVal 1 true (some 7), exVal 1 true none]] = some [some 1] ∧
    ¬ InSegment .min .lt 5 (numbers .none [exVal 1 true (some 7), exVal 1 true none] 1) := by
  refine ⟨by decide +kernel, ?_⟩
  rintro ⟨-, x, ⟨hx, -⟩, hc⟩
  have e : numbers .none [exVal 1 true (some 7), exVal 1 true none] 1 = [7] := by decide +kernel
  rw [e, List.mem_singleton] at hx
  subst hx
  simp [Compares] at hc

/-- Specification: the decimal `v · 10^-s` against the decimal `w · 10^-t`. -/
def DecLe (v : Int) (s : Nat) (w : Int) (t : Nat) : Prop := v * 10 ^ t ≤ w * 10 ^ s

/-- With one scale decimals compare as their digits. -/
theorem C155_scale_partial (v w : Int) (s : Nat) : DecLe v s w s ↔ v ≤ w := by
  have h : (0 : Int) < 10 ^ s := Int.pow_pos (by omega)
  unfold DecLe
  exact ⟨fun e => Int.le_of_mul_le_mul_right e h, fun e => Int.mul_le_mul_of_nonneg_right e (Int.le_of_lt h)⟩

/-- The number of a request has its own scale, the column another, and the digits are compared: 7 (in a column with two places) is not at most 10. -/
theorem C155_scale_violated : ∃ (v w : Int) (s t p : Nat), DecLe v s w t ∧ segRight (.decimal s) (.decimal w p t) = some w ∧ ¬ Compares .ltEq v w :=
  ⟨700, 10, 2, 0, 38, by unfold DecLe; decide, rfl, by simp [Compares]⟩

/-- A number of the other kind than the column is a panic. -/
theorem C155_kind_violated (v : Int) (p s : Nat) : segRight .int (.decimal v p s) = none ∧ segRight (.decimal s) (.int v) = none := ⟨rfl, rfl⟩

/-- As in `C155_partial`: two users, the sum of one of which is at least 10. -/
example : segProp .sum .gtEq 10 .none 0 [[exVal 1 true (some 7), exVal 1 true (some 4)], [exVal 2 true (some 9), exVal 2 false none]] = some [some 1, none] ∧
    (∀ r ∈ [exVal 1 true (some 7), exVal 1 true (some 4), exVal 2 true (some 9), exVal 2 false none], Hit .none r.toSRow → ∃ v, r.val = some v ∧ Fits128 v) ∧
    PByUser [exVal 1 true (some 7), exVal 1 true (some 4), exVal 2 true (some 9), exVal 2 false none] := by
  refine ⟨by decide +kernel, ?_, ?_⟩
  · intro r hr hh
    simp only [List.mem_cons, List.not_mem_nil, or_false] at hr
    rcases hr with rfl | rfl | rfl | rfl
    · exact ⟨7, rfl, by unfold Fits128; decide⟩
    · exact ⟨4, rfl, by unfold Fits128; decide⟩
    · exact ⟨9, rfl, by unfold Fits128; decide⟩
    · exact absurd hh.1 (by decide)
  · simp [PByUser, exVal]

end OptiPrism.Query
