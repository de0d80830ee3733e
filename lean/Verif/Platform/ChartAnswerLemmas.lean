import Verif.Platform.ChartAnswer
import Verif.Platform.AnswerProps
import Verif.Platform.ChartDecodeProps
import Verif.Query.AverageProps

/-!
# Lemmas about the answer to a chart
-/

namespace OptiPrism.Platform

open OptiPrism.Meta (Str)
open OptiPrism.Query (Name cellOf limitRow limitRows MeanZero Quotient' renameRow)

/-! ### Limits -/

theorem limitRow_all {α : Type} [DecidableEq α] (limit : Nat) : ∀ (vs : List (Option α)) (j : Nat) (cn : Nat → Option α → Nat),
    (∀ i v, vs[i]? = some v → cn (j + i) v < limit) →
    (limitRow limit j vs cn).2 = true ∧
    ∀ i v, (limitRow limit j vs cn).1 i v = cn i v + if j ≤ i ∧ vs[i - j]? = some v then 1 else 0
  | [], j, cn, _ => by simp [limitRow]
  | w :: vs, j, cn, h => by
    have h0 := h 0 w rfl
    unfold limitRow
    rw [if_neg (by simp at h0; omega)]
    obtain ⟨h1, h2⟩ := limitRow_all limit vs (j + 1) (fun i x => if i = j ∧ x = w then cn i x + 1 else cn i x) (by
      intro i v hv
      have := h (i + 1) v (by simpa using hv)
      show (if j + 1 + i = j ∧ v = w then _ else cn (j + 1 + i) v) < limit
      rw [if_neg (by omega), show j + 1 + i = j + (i + 1) by omega]
      exact this)
    refine ⟨h1, fun i v => ?_⟩
    rw [h2 i v]
    by_cases hi : i = j
    · subst hi
      rw [if_neg (c := i + 1 ≤ i ∧ _) (by omega)]
      simp only [Nat.sub_self, Nat.le_refl, List.getElem?_cons_zero, true_and, Option.some.injEq, Nat.add_zero]
      by_cases hw : v = w
      · simp [hw]
      · simp [hw, Ne.symm hw]
    · rw [if_neg (by omega)]
      by_cases hj : j + 1 ≤ i
      · have e : i - j = (i - (j + 1)) + 1 := by omega
        simp [hj, show j ≤ i by omega, e]
      · rw [if_neg (by omega), if_neg (by omega)]

/-- The limit leaves out nothing if no value has more rows. -/
theorem limitRows_all {α ρ : Type} [DecidableEq α] (cells : ρ → List (Option α)) (limit : Nat) : ∀ (rows : List ρ) (cn : Nat → Option α → Nat),
    (∀ j v, (∃ r ∈ rows, (cells r)[j]? = some v) → cn j v + (rows.filter fun r => decide ((cells r)[j]? = some v)).length ≤ limit) →
    limitRows cells limit cn rows = rows
  | [], _, _ => rfl
  | r :: rows, cn, h => by
    obtain ⟨h1, h2⟩ := limitRow_all limit (cells r) 0 cn (by
      intro i v hv
      have := h i v ⟨r, by simp, hv⟩
      rw [List.filter_cons_of_pos (by simpa using hv), List.length_cons] at this
      rw [Nat.zero_add]
      omega)
    unfold limitRows
    simp only [h1, if_true]
    rw [limitRows_all cells limit rows _ ?_]
    rintro j v ⟨r', hr', hv'⟩
    have := h j v ⟨r', by simp [hr'], hv'⟩
    rw [h2 j v]
    by_cases hv : (cells r)[j]? = some v
    · rw [List.filter_cons_of_pos (by simpa using hv), List.length_cons] at this
      simp only [Nat.zero_le, Nat.sub_zero, hv, and_self, if_true]
      omega
    · rw [List.filter_cons_of_neg (by simpa using hv)] at this
      simp only [Nat.zero_le, Nat.sub_zero, hv, and_false, if_false]
      omega

/-- The limit keeps a row. -/
theorem limitRows_first {α ρ : Type} [DecidableEq α] (cells : ρ → List (Option α)) {limit : Nat} (hl : 0 < limit) {rows : List ρ} (h : rows ≠ []) :
    limitRows cells limit (fun _ _ => 0) rows ≠ [] := by
  cases rows with
  | nil => exact absurd rfl h
  | cons r rows =>
    obtain ⟨h1, _⟩ := limitRow_all limit (cells r) 0 (fun _ _ => 0) (fun _ _ _ => hl)
    unfold limitRows
    simp [h1]

/-! ### Slots -/

/-- A number that is missing is read as zero. -/
def Slot.orZero : Slot → Slot
  | .int none => .int (some 0)
  | .dec none => .dec (some 0)
  | s => s

theorem slotJson_zero {s : Slot} (hf : s.Fits) : ∃ j, slotJson s = some j ∧ Written s.orZero j := by
  by_cases hi : s = .int none
  · subst hi
    exact ⟨_, rfl, .dec 0, rfl, by simp [JNum.Is, JNum.top]⟩
  · by_cases hd : s = .dec none
    · subst hd
      exact ⟨_, rfl, .dec 0, rfl, by simp [JNum.Near, JNum.top, JNum.bottom]⟩
    · obtain ⟨j, h1, h2⟩ := slotJson_shows hi hd hf
      refine ⟨j, h1, ?_⟩
      have : s.orZero = s := by
        unfold Slot.orZero
        split
        · exact absurd rfl hi
        · exact absurd rfl hd
        · rfl
      rw [this]
      exact h2

/-! ### Means -/

theorem sum_bound {M : Nat} : ∀ {vals : List (Option Int)}, (∀ v ∈ vals, ∀ m, v = some m → m.natAbs ≤ M) →
    -((M : Int) * vals.length) ≤ (vals.map fun v => v.getD 0).sum ∧ (vals.map fun v => v.getD 0).sum ≤ (M : Int) * vals.length
  | [], _ => by simp
  | v :: vals, h => by
    obtain ⟨h1, h2⟩ := sum_bound (M := M) (vals := vals) fun w hw => h w (by simp [hw])
    have h3 : (v.getD 0).natAbs ≤ M := by
      cases v with
      | none => simp
      | some m => exact h _ (by simp) m rfl
    have e : (M : Int) * ((v :: vals).length : Nat) = M * vals.length + M := by
      rw [List.length_cons]
      push_cast
      rw [Int.mul_add, Int.mul_one]
    rw [List.map_cons, List.sum_cons, e]
    omega

/-- The mean is not larger than what it is the mean of. -/
theorem mean_bound {M : Nat} {vals : List (Option Int)} {a : Int} (h : MeanZero vals a) (hv : ∀ v ∈ vals, ∀ m, v = some m → m.natAbs ≤ M) :
    a.natAbs ≤ M := by
  obtain ⟨h0, h1, h2⟩ := h
  obtain ⟨b1, b2⟩ := sum_bound hv
  have hn : (0 : Int) < vals.length := by omega
  generalize (vals.map fun v => v.getD 0).sum = s at *
  rcases Int.le_total 0 s with hs | hs
  · obtain ⟨c1, c2⟩ := h1 hs
    have d1 : a ≤ M := Int.le_of_mul_le_mul_right (Int.le_trans c1 b2) hn
    have d2 : 0 < a + 1 := Int.pos_of_mul_pos_left (by omega) hn
    omega
  · obtain ⟨c1, c2⟩ := h2 hs
    have d1 : -(M : Int) ≤ a := by
      have : -(M : Int) * vals.length ≤ a * vals.length := by
        rw [Int.neg_mul]
        omega
      exact Int.le_of_mul_le_mul_right this hn
    have d2 : 0 < 1 - a := by
      refine Int.pos_of_mul_pos_left (b := (vals.length : Int)) ?_ hn
      have : (1 - a) * (vals.length : Int) = -((a - 1) * vals.length) := by
        rw [← Int.neg_mul, Int.neg_sub]
      omega
    omega

/-! ### Cells -/

theorem cellOf_left {α : Type} {f : Name} : ∀ {l1 l2 : List Name} {v1 v2 : List (Option α)}, v1.length = l1.length → f ∈ l1 →
    cellOf (l1 ++ l2) (v1 ++ v2) f = cellOf l1 v1 f
  | [], _, _, _, _, h => by cases h
  | _ :: _, _, [], _, h, _ => by simp at h
  | g :: l1, l2, w :: v1, v2, hl, h => by
    show (if g = f then w else cellOf (l1 ++ l2) (v1 ++ v2) f) = if g = f then w else cellOf l1 v1 f
    by_cases e : g = f
    · rw [if_pos e, if_pos e]
    · rw [if_neg e, if_neg e]
      rcases List.mem_cons.mp h with h | h
      · exact absurd h.symm e
      · exact cellOf_left (by simpa using hl) h

theorem cellOf_right {α : Type} {f : Name} : ∀ {l1 l2 : List Name} {v1 v2 : List (Option α)}, v1.length = l1.length → f ∉ l1 →
    cellOf (l1 ++ l2) (v1 ++ v2) f = cellOf l2 v2 f
  | [], _, [], _, _, _ => rfl
  | [], _, _ :: _, _, h, _ => by simp at h
  | _ :: _, _, [], _, h, _ => by simp at h
  | g :: l1, l2, w :: v1, v2, hl, h => by
    show (if g = f then w else cellOf (l1 ++ l2) (v1 ++ v2) f) = _
    rw [List.mem_cons, not_or] at h
    rw [if_neg (Ne.symm h.1)]
    exact cellOf_right (by simpa using hl) h.2

theorem cellOf_at {α : Type} {f : Name} : ∀ {l : List Name} {vs : List (Option α)} {i : Nat} {v : Option α}, l.Nodup → l[i]? = some f →
    vs[i]? = some v → cellOf l vs f = v
  | [], _, _, _, _, h, _ => by simp at h
  | _ :: _, [], _, _, _, _, h => by simp at h
  | g :: l, w :: vs, 0, v, _, h1, h2 => by
    simp at h1 h2
    show (if g = f then w else _) = v
    rw [if_pos h1, h2]
  | g :: l, w :: vs, i + 1, v, hn, h1, h2 => by
    rw [List.nodup_cons] at hn
    simp at h1 h2
    show (if g = f then w else cellOf l vs f) = v
    rw [if_neg (by
      rintro rfl
      exact hn.1 (List.mem_of_getElem? h1))]
    exact cellOf_at hn.2 h1 h2

/-! ### Lists -/

theorem eq_map_of {α β : Type} (g : α → β) : ∀ {l : List β}, (∀ b ∈ l, ∃ a, b = g a) → ∃ l' : List α, l = l'.map g
  | [], _ => ⟨[], rfl⟩
  | b :: l, h => by
    obtain ⟨a, ha⟩ := h b (by simp)
    obtain ⟨l', hl'⟩ := eq_map_of (l := l) g fun b hb => h b (List.mem_cons_of_mem _ hb)
    exact ⟨a :: l', by rw [List.map_cons, ← ha, ← hl']⟩

theorem lift_pairs {α β γ : Type} (g : α → β) : ∀ {l : List (β × γ)} {L : List α}, l.map Prod.fst = L.map g →
    ∃ L' : List (α × γ), L'.map Prod.fst = L ∧ l = L'.map fun y => (g y.1, y.2)
  | [], [], _ => ⟨[], rfl, rfl⟩
  | [], _ :: _, h => by simp at h
  | _ :: _, [], h => by simp at h
  | x :: l, a :: L, h => by
    simp only [List.map_cons, List.cons.injEq] at h
    obtain ⟨L', h1, h2⟩ := lift_pairs g h.2
    refine ⟨(a, x.2) :: L', by simp [h1], ?_⟩
    rw [List.map_cons, ← h2, ← h.1]

/-! ### Breakdowns -/

theorem newBreaks_mem {b : BreakCol} : ∀ {bs : List BreakCol} {seen : List Str}, b ∈ newBreaks seen bs →
    b ∈ bs ∧ b.col ∉ seen ∧ bs.find? (fun c => c.col == b.col) = some b
  | [], _, h => by simp [newBreaks] at h
  | c :: bs, seen, h => by
    unfold newBreaks at h
    by_cases hc : c.col ∈ seen
    · rw [if_pos hc] at h
      obtain ⟨h1, h2, h3⟩ := newBreaks_mem h
      refine ⟨by simp [h1], h2, ?_⟩
      rw [List.find?_cons_of_neg, h3]
      simp only [beq_iff_eq]
      intro e
      exact h2 (e ▸ hc)
    · rw [if_neg hc] at h
      rcases List.mem_cons.mp h with e | h
      · subst e
        exact ⟨by simp, hc, by simp⟩
      · obtain ⟨h1, h2, h3⟩ := newBreaks_mem h
        simp only [List.mem_append, List.mem_cons, List.not_mem_nil, or_false, not_or] at h2
        refine ⟨by simp [h1], h2.1, ?_⟩
        rw [List.find?_cons_of_neg, h3]
        simp only [beq_iff_eq]
        exact Ne.symm h2.2

theorem newBreaks_nodup : ∀ (bs : List BreakCol) (seen : List Str), ((newBreaks seen bs).map (·.col)).Nodup
  | [], _ => by simp [newBreaks]
  | c :: bs, seen => by
    unfold newBreaks
    by_cases hc : c.col ∈ seen
    · rw [if_pos hc]
      exact newBreaks_nodup bs seen
    · rw [if_neg hc, List.map_cons, List.nodup_cons]
      refine ⟨?_, newBreaks_nodup bs _⟩
      intro h
      obtain ⟨b, hb, e⟩ := List.mem_map.mp h
      have := (newBreaks_mem hb).2.1
      rw [e] at this
      simp at this

theorem newBreaks_all {b : BreakCol} : ∀ {bs : List BreakCol} {seen : List Str}, b ∈ bs → b.col ∈ seen ∨ b.col ∈ (newBreaks seen bs).map (·.col)
  | [], _, h => by cases h
  | c :: bs, seen, h => by
    unfold newBreaks
    by_cases hc : c.col ∈ seen
    · rw [if_pos hc]
      rcases List.mem_cons.mp h with e | h
      · subst e
        exact .inl hc
      · exact newBreaks_all h
    · rw [if_neg hc]
      rcases List.mem_cons.mp h with e | h
      · subst e
        exact .inr (by simp)
      · rcases newBreaks_all (seen := seen ++ [c.col]) h with h | h
        · simp only [List.mem_append, List.mem_cons, List.not_mem_nil, or_false] at h
          rcases h with h | h
          · exact .inl h
          · exact .inr (by simp [h])
        · exact .inr (by rw [List.map_cons]; exact List.mem_cons_of_mem _ h)

theorem shownNames_length (number : Nat → Str) : ∀ (bs : List BreakCol) (used : List Str), (shownNames number used bs).length = bs.length
  | [], _ => rfl
  | b :: bs, used => by simp [shownNames, shownNames_length number bs]

theorem shownNames_fst (number : Nat → Str) : ∀ (bs : List BreakCol) (used : List Str), (shownNames number used bs).map Prod.fst = bs.map (·.col)
  | [], _ => rfl
  | b :: bs, used => by simp [shownNames, shownNames_fst number bs]

theorem shownNames_zip (number : Nat → Str) {x : BreakCol × (Str × Str)} : ∀ {bs : List BreakCol} {used : List Str}, x ∈ bs.zip (shownNames number used bs) →
    x.2.1 = x.1.col
  | [], _, h => by simp at h
  | b :: bs, used, h => by
    simp only [shownNames, List.zip_cons_cons, List.mem_cons] at h
    rcases h with h | h
    · rw [h]
    · exact shownNames_zip number h

theorem renameRow_column (l : List (Str × Str)) (f : Str) : renameRow l (some f) = some (renameColumn l f) := by
  unfold renameRow renameColumn
  cases h : l.find? fun p => p.1 == f <;> simp only [h]

end OptiPrism.Platform
