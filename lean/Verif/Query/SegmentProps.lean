import Verif.Query.Segment

/-! Properties C60, C61 and C83: behavioural segments. -/

namespace OptiPrism.Query

/-- Specification: the row is in the period and passes the filter. -/
def Hit (tr : TimeRange) (r : SRow) : Prop :=
  r.pass = some true ∧
  match tr with
  | .between a b => a ≤ r.ts ∧ r.ts ≤ b
  | .from_ a => a ≤ r.ts
  | .last since start => start - since ≤ r.ts
  | .none => True

instance (tr : TimeRange) (r : SRow) : Decidable (Hit tr r) := by
  unfold Hit; cases tr <;> infer_instance

/-- Specification: how often a user did it. -/
def times (tr : TimeRange) (rows : List SRow) (u : Int) : Nat :=
  rows.countP fun r => decide (Hit tr r) && r.user == some u

/-- Specification of the comparison. -/
def Compares : SegOp → Int → Int → Prop
  | .eq, a, b => a = b
  | .notEq, a, b => ¬ a = b
  | .lt, a, b => a < b
  | .ltEq, a, b => a ≤ b
  | .gt, a, b => b < a
  | .gtEq, a, b => b ≤ a

theorem holds_iff (op : SegOp) (a b : Int) : op.holds a b = true ↔ Compares op a b := by
  cases op <;> simp [SegOp.holds, Compares] <;> omega

/-- Rows sorted by user, every row with a user. -/
def ByUser (rows : List SRow) : Prop :=
  rows.Pairwise fun a b => ∃ u v, a.user = some u ∧ b.user = some v ∧ u ≤ v

theorem check_iff (tr : TimeRange) (r : SRow) :
    (tr.check r.ts && checkFilter r.pass) = decide (Hit tr r) := by
  have h1 : checkFilter r.pass = decide (r.pass = some true) := by
    rcases r.pass with _ | b
    · rfl
    · cases b <;> rfl
  rw [h1, Bool.eq_iff_iff]
  cases tr <;> simp [TimeRange.check, Hit, and_comm]

theorem segUse_miss (op : SegOp) (right : Int) (tr : TimeRange) (s : SegState) (r : SRow)
    (h : ¬ Hit tr r) : segUse op right tr s r = some s := by
  have := check_iff tr r
  rw [decide_eq_false h] at this
  unfold segUse
  cases hc : tr.check r.ts
  · rfl
  · rw [hc, Bool.true_and] at this
    rw [this]; rfl

theorem segUse_hit (op : SegOp) (right : Int) (tr : TimeRange) (s : SegState) (r : SRow) (u : Int)
    (h : Hit tr r) (hu : r.user = some u) : segUse op right tr s r =
      if s.last ≠ u then
        some { s with res := s.res ++ [s.entry op right], last := u, count := 1 }
      else some { s with count := s.count + 1 } := by
  have := check_iff tr r
  rw [decide_eq_true h, Bool.and_eq_true] at this
  unfold segUse
  rw [this.1, this.2, hu]; rfl

/-- The entry of a user in the result. -/
def report (op : SegOp) (right : Int) (tr : TimeRange) (rows : List SRow) (u : Int) : Option Int :=
  if op.holds (times tr rows u) right then some u else none

/-- The state after some rows, the first of which belongs to `f`. -/
structure SInv (op : SegOp) (right : Int) (tr : TimeRange) (f : Int) (P : List SRow)
    (s : SegState) (us : List Int) : Prop where
  started : s.first = false
  asc : (us ++ [s.last]).Pairwise (· < ·)
  mem : ∀ x, x ∈ us ++ [s.last] ↔ x = f ∨ 0 < times tr P x
  res : s.res = us.map (report op right tr P)
  count : s.count = times tr P s.last

theorem times_append (tr : TimeRange) (P : List SRow) (r : SRow) (x : Int) :
    times tr (P ++ [r]) x = times tr P x + if Hit tr r ∧ r.user = some x then 1 else 0 := by
  unfold times
  rw [List.countP_append]
  congr 1
  by_cases h : Hit tr r ∧ r.user = some x
  · simp [h.1, h.2]
  · rw [if_neg h]
    rw [List.countP_cons_of_neg]
    · rfl
    · simpa using h

theorem segUse_inv (op : SegOp) (right : Int) (tr : TimeRange) (f : Int) (P : List SRow)
    (s : SegState) (us : List Int) (r : SRow) (u : Int) (hu : r.user = some u)
    (h : SInv op right tr f P s us) (hmax : ∀ x ∈ us ++ [s.last], x ≤ u) :
    ∃ s' us', segUse op right tr s r = some s' ∧ SInv op right tr f (P ++ [r]) s' us' ∧
      ∀ x ∈ us' ++ [s'.last], x ≤ u := by
  obtain ⟨h1, h2, h3, h4, h5⟩ := h
  by_cases hh : Hit tr r
  · have ht : ∀ x, x ≠ u → times tr (P ++ [r]) x = times tr P x := by
      intro x hx
      rw [times_append, if_neg]; · rfl
      rintro ⟨_, e⟩; rw [hu] at e; cases e; exact hx rfl
    have htu : times tr (P ++ [r]) u = times tr P u + 1 := by
      rw [times_append, if_pos ⟨hh, hu⟩]
    rw [segUse_hit op right tr s r u hh hu]
    by_cases hl : s.last = u
    · rw [if_neg (by simpa using hl)]
      refine ⟨_, us, rfl, ⟨h1, h2, ?_, ?_, ?_⟩, ?_⟩
      · intro x
        show x ∈ us ++ [s.last] ↔ _
        rw [h3 x]
        by_cases hx : x = u
        · subst hx
          constructor
          · intro _; exact .inr (by rw [htu]; omega)
          · intro _; exact (h3 x).mp (by rw [hl]; simp)
        · rw [ht x hx]
      · show s.res = _
        rw [h4]
        apply List.map_congr_left
        intro x hx
        have hxl : x < s.last := by
          rw [List.pairwise_append] at h2
          exact h2.2.2 x hx _ (by simp)
        unfold report
        rw [ht x (by omega)]
      · show s.count + 1 = times tr (P ++ [r]) s.last
        rw [h5, hl, htu]; omega
      · intro x hx; exact hmax x hx
    · rw [if_pos hl]
      have hlt : ∀ x ∈ us ++ [s.last], x < u := by
        intro x hx
        rw [List.pairwise_append] at h2
        have hle : x ≤ s.last := by
          rcases List.mem_append.mp hx with h | h
          · have := h2.2.2 x h _ (by simp : s.last ∈ [s.last]); omega
          · rw [List.mem_singleton.mp h]; omega
        have := hmax s.last (by simp)
        omega
      refine ⟨_, us ++ [s.last], rfl, ⟨h1, ?_, ?_, ?_, ?_⟩, ?_⟩
      · show ((us ++ [s.last]) ++ [u]).Pairwise _
        rw [List.pairwise_append]
        refine ⟨h2, by simp, ?_⟩
        intro a ha b hb
        rw [List.mem_singleton.mp hb]
        exact hlt a ha
      · intro x
        show x ∈ (us ++ [s.last]) ++ [u] ↔ _
        rw [List.mem_append, h3 x]
        by_cases hx : x = u
        · subst hx
          constructor
          · intro _; exact .inr (by rw [htu]; omega)
          · intro _; exact .inr (by simp)
        · rw [ht x hx]
          constructor
          · rintro (h | h)
            · exact h
            · exact absurd (List.mem_singleton.mp h) hx
          · exact .inl
      · show s.res ++ [s.entry op right] = _
        rw [List.map_append]
        congr 1
        · rw [h4]
          apply List.map_congr_left
          intro x hx
          have := hlt x (List.mem_append_left _ hx)
          unfold report
          rw [ht x (by omega)]
        · have := hlt s.last (by simp)
          show [s.entry op right] = [report op right tr (P ++ [r]) s.last]
          unfold report SegState.entry
          rw [ht s.last (by omega), h5]
      · show (1 : Int) = times tr (P ++ [r]) u
        have h0 : times tr P u = 0 := by
          cases hz : times tr P u with
          | zero => rfl
          | succ n =>
            have := hlt u ((h3 u).mpr (.inr (by omega)))
            omega
        rw [htu, h0]; rfl
      · intro x hx
        rcases List.mem_append.mp hx with h | h
        · have := hlt x h; omega
        · rw [List.mem_singleton.mp h]; exact Int.le_refl u
  · have ht : ∀ x, times tr (P ++ [r]) x = times tr P x := by
      intro x
      rw [times_append, if_neg]; · rfl
      rintro ⟨e, _⟩; exact hh e
    refine ⟨s, us, segUse_miss op right tr s r hh, ⟨h1, h2, ?_, ?_, ?_⟩, hmax⟩
    · intro x; rw [h3 x, ht x]
    · rw [h4]
      apply List.map_congr_left
      intro x _
      unfold report; rw [ht x]
    · rw [h5, ht]

theorem foldlM_seg (op : SegOp) (right : Int) (tr : TimeRange) (f : Int) (rows : List SRow) :
    ∀ (P : List SRow) (s : SegState) (us : List Int), SInv op right tr f P s us →
    ByUser rows → (∀ r ∈ rows, ∃ u, r.user = some u ∧ ∀ x ∈ us ++ [s.last], x ≤ u) →
    ∃ s' us', rows.foldlM (segRow op right tr) s = some s' ∧
      SInv op right tr f (P ++ rows) s' us' := by
  induction rows with
  | nil => intro P s us h _ _; exact ⟨s, us, rfl, by simpa using h⟩
  | cons r rows ih =>
    intro P s us h hs hb
    obtain ⟨u, hu, hmax⟩ := hb r (by simp)
    obtain ⟨s1, us1, e1, i1, m1⟩ := segUse_inv op right tr f P s us r u hu h hmax
    have hs' := List.pairwise_cons.mp hs
    obtain ⟨s2, us2, e2, i2⟩ := ih (P ++ [r]) s1 us1 i1 hs'.2 (by
      intro q hq
      obtain ⟨a, b, ha, hb', hab⟩ := hs'.1 q hq
      rw [hu] at ha; cases ha
      exact ⟨b, hb', fun x hx => Int.le_trans (m1 x hx) hab⟩)
    refine ⟨s2, us2, ?_, by simpa using i2⟩
    rw [List.foldlM_cons]
    have : segRow op right tr s r = some s1 := by
      unfold segRow
      rw [h.started]; exact e1
    rw [this]; exact e2

theorem segCount_flatten (op : SegOp) (right : Int) (tr : TimeRange) (batches : List (List SRow)) :
    ∀ s, batches.foldlM (fun s (rows : List SRow) => rows.foldlM (segRow op right tr) s) s =
      batches.flatten.foldlM (segRow op right tr) s := by
  induction batches with
  | nil => intro s; rfl
  | cons b bs ih =>
    intro s
    rw [List.foldlM_cons, List.flatten_cons, List.foldlM_append]
    congr 1
    funext s; exact ih s

/-- C60, the entries: the result lists, in ascending order and once each, the first user and every
user with a hit, each with the truth value of the comparison of its number of hits. -/
theorem C60_entries (op : SegOp) (right : Int) (tr : TimeRange) (batches : List (List SRow))
    (r0 : SRow) (rest : List SRow) (hb : batches.flatten = r0 :: rest) (f : Int)
    (hf : r0.user = some f) (hs : ByUser batches.flatten) :
    ∃ us : List Int, us.Pairwise (· < ·) ∧
      (∀ u, u ∈ us ↔ u = f ∨ 0 < times tr batches.flatten u) ∧
      segCount op right tr batches = some (us.map fun u =>
        if op.holds (times tr batches.flatten u) right then some u else none) := by
  unfold segCount
  rw [segCount_flatten, hb, List.foldlM_cons]
  rw [hb] at hs
  have hs' := List.pairwise_cons.mp hs
  have i0 : SInv op right tr f [] { SegState.init with first := false, last := f } [] :=
    ⟨rfl, by simp, by intro x; simp [times], rfl, rfl⟩
  obtain ⟨s1, us1, e1, i1, m1⟩ := segUse_inv op right tr f [] _ [] r0 f hf i0 (by
    intro x hx; simp at hx; omega)
  obtain ⟨s2, us2, e2, i2⟩ := foldlM_seg op right tr f rest ([] ++ [r0]) s1 us1 i1 hs'.2 (by
    intro q hq
    obtain ⟨a, b, ha, hb', hab⟩ := hs'.1 q hq
    rw [hf] at ha; cases ha
    exact ⟨b, hb', fun x hx => Int.le_trans (m1 x hx) hab⟩)
  have e0 : segRow op right tr SegState.init r0 = some s1 := by
    unfold segRow
    rw [hf]; exact e1
  refine ⟨us2 ++ [s2.last], i2.asc, ?_, ?_⟩
  · intro u
    rw [i2.mem u]; rfl
  · rw [e0]
    show Option.map _ (rest.foldlM (segRow op right tr) s1) = _
    rw [e2]
    show some (s2.res ++ [s2.entry op right]) = _
    rw [i2.res, List.map_append]
    congr 2
    unfold SegState.entry
    rw [i2.count]; rfl

/-- C60: the users in the segment are exactly those whose number of hits compares, each reported
once, for every batching. `_partial`: only when zero hits do not satisfy the comparison; users
without a hit are not reported otherwise (`C60_violated`). -/
theorem C60_partial (op : SegOp) (right : Int) (tr : TimeRange) (batches : List (List SRow))
    (hu : ∀ r ∈ batches.flatten, r.user ≠ none) (hs : ByUser batches.flatten)
    (h0 : ¬ Compares op 0 right) :
    ∃ res, segCount op right tr batches = some res ∧ (res.filterMap id).Nodup ∧
      ∀ u, some u ∈ res ↔ Compares op (times tr batches.flatten u) right := by
  have hz : ∀ u, times tr batches.flatten u = 0 →
      ¬ op.holds (times tr batches.flatten u) right = true := by
    intro u e; rw [e, holds_iff]; exact h0
  cases hb : batches.flatten with
  | nil =>
    refine ⟨[none], ?_, by simp, ?_⟩
    · unfold segCount
      rw [segCount_flatten, hb]
      have : op.holds 0 right = false := by
        cases e : op.holds 0 right with
        | false => rfl
        | true => exact absurd ((holds_iff _ _ _).mp e) h0
      show some [SegState.entry op right SegState.init] = _
      simp [SegState.entry, SegState.init, this]
    · intro u
      constructor
      · intro h; simp at h
      · intro h; exact absurd h h0
  | cons r0 rest =>
    cases hf : r0.user with
    | none => exact absurd hf (hu r0 (by rw [hb]; simp))
    | some f =>
      obtain ⟨us, u1, u2, u3⟩ := C60_entries op right tr batches r0 rest hb f hf hs
      rw [← hb]
      refine ⟨_, u3, ?_, ?_⟩
      · have : (us.map fun u => if op.holds (times tr batches.flatten u) right then some u
            else none).filterMap id =
            us.filter fun u => op.holds (times tr batches.flatten u) right := by
          clear u1 u2 u3
          induction us with
          | nil => rfl
          | cons x us ih =>
            by_cases hx : op.holds (times tr batches.flatten x) right = true
            · simp [hx] at ih ⊢; exact ih
            · simp [hx] at ih ⊢; exact ih
        rw [this]
        exact (u1.imp (fun h => Int.ne_of_lt h)).sublist List.filter_sublist
      · intro u
        rw [← holds_iff]
        constructor
        · intro h
          obtain ⟨x, hx, e⟩ := List.mem_map.mp h
          split at e
          next hc => cases e; exact hc
          next => cases e
        · intro h
          refine List.mem_map.mpr ⟨u, (u2 u).mpr (.inr ?_), by rw [if_pos h]⟩
          cases e : times tr batches.flatten u with
          | zero => exact absurd h (hz u e)
          | succ n => omega

/-- Users 1, 2, 3; user 2 has no hit. -/
def exSeg : List (List SRow) :=
  [[⟨some 1, 10, some true⟩, ⟨some 1, 11, some true⟩, ⟨some 2, 5, some false⟩],
   [⟨some 3, 6, some true⟩]]

/-- C60 is false when zero hits satisfy the comparison: "less than two times" does not contain
user 2, who never did it. -/
theorem C60_violated : segCount .lt 2 .none exSeg = some [none, some 3] ∧
    Compares .lt (times .none exSeg.flatten 2) 2 := by
  constructor
  · decide +kernel
  · show (times .none exSeg.flatten 2 : Int) < 2
    decide +kernel

example : ByUser exSeg.flatten ∧ (∀ r ∈ exSeg.flatten, r.user ≠ none) ∧ ¬ Compares .gtEq 0 1 := by
  refine ⟨?_, by decide, by simp [Compares]⟩
  simp [exSeg, ByUser]

example : segCount .gtEq 1 (.from_ 6) exSeg = some [some 1, some 3] := by decide +kernel

/-! ### And, Or -/

/-- Strictly ascending lists with the same members are equal. -/
theorem asc_eq : ∀ {a b : List Int}, a.Pairwise (· < ·) → b.Pairwise (· < ·) →
    (∀ x, x ∈ a ↔ x ∈ b) → a = b
  | [], [], _, _, _ => rfl
  | [], y :: b, _, _, h => absurd ((h y).mpr (by simp)) (by simp)
  | x :: a, [], _, _, h => absurd ((h x).mp (by simp)) (by simp)
  | x :: a, y :: b, ha, hb, h => by
    have ha' := List.pairwise_cons.mp ha
    have hb' := List.pairwise_cons.mp hb
    have hxy : x = y := by
      rcases List.mem_cons.mp ((h x).mp (by simp)) with e | hx
      · exact e
      · rcases List.mem_cons.mp ((h y).mpr (by simp)) with e | hy
        · exact e.symm
        · have := ha'.1 y hy
          have := hb'.1 x hx
          omega
    subst hxy
    rw [asc_eq ha'.2 hb'.2 (by
      intro z
      constructor
      · intro hz
        have := ha'.1 z hz
        rcases List.mem_cons.mp ((h z).mp (List.mem_cons_of_mem _ hz)) with e | hz'
        · omega
        · exact hz'
      · intro hz
        have := hb'.1 z hz
        rcases List.mem_cons.mp ((h z).mpr (List.mem_cons_of_mem _ hz)) with e | hz'
        · omega
        · exact hz')]

theorem segAnd_map (us : List Int) (p q : Int → Bool) :
    segAnd (us.map fun u => if p u then some u else none)
      (us.map fun u => if q u then some u else none) =
      us.map fun u => if p u && q u then some u else none := by
  unfold segAnd
  induction us with
  | nil => rfl
  | cons u us ih =>
    simp only [List.map_cons, List.zip_cons_cons]
    rw [ih]
    congr 1
    cases p u <;> cases q u <;> rfl

theorem segOr_map (us : List Int) (p q : Int → Bool) :
    segOr (us.map fun u => if p u then some u else none)
      (us.map fun u => if q u then some u else none) =
      us.map fun u => if p u || q u then some u else none := by
  unfold segOr
  induction us with
  | nil => rfl
  | cons u us ih =>
    simp only [List.map_cons, List.zip_cons_cons]
    rw [ih]
    congr 1
    cases p u <;> cases q u <;> rfl

/-- C61: the conjunction and disjunction of two counting predicates hold for a user exactly when
both, or one of, its own truth values do. `_partial`: only if every user has a hit for both
predicates; otherwise entries of different users are paired (`C61_violated`). -/
theorem C61_partial (op1 op2 : SegOp) (n1 n2 : Int) (tr1 tr2 : TimeRange)
    (b1 b2 : List (List SRow)) (hu : b1.flatten.map SRow.user = b2.flatten.map SRow.user)
    (hs1 : ByUser b1.flatten) (hs2 : ByUser b2.flatten)
    (hsome : ∀ r ∈ b1.flatten, r.user ≠ none) (hne : b1.flatten ≠ [])
    (hit1 : ∀ r ∈ b1.flatten, ∀ u, r.user = some u → 0 < times tr1 b1.flatten u)
    (hit2 : ∀ r ∈ b2.flatten, ∀ u, r.user = some u → 0 < times tr2 b2.flatten u) :
    ∃ l r, segCount op1 n1 tr1 b1 = some l ∧ segCount op2 n2 tr2 b2 = some r ∧
      (∀ u, some u ∈ segAnd l r ↔ (∃ q ∈ b1.flatten, q.user = some u) ∧
        Compares op1 (times tr1 b1.flatten u) n1 ∧ Compares op2 (times tr2 b2.flatten u) n2) ∧
      (∀ u, some u ∈ segOr l r ↔ (∃ q ∈ b1.flatten, q.user = some u) ∧
        (Compares op1 (times tr1 b1.flatten u) n1 ∨
          Compares op2 (times tr2 b2.flatten u) n2)) := by
  cases e1 : b1.flatten with
  | nil => exact absurd e1 hne
  | cons r1 rest1 =>
  cases e2 : b2.flatten with
  | nil => rw [e1, e2] at hu; simp at hu
  | cons r2 rest2 =>
  cases f1 : r1.user with
  | none => exact absurd f1 (hsome r1 (by rw [e1]; simp))
  | some f =>
  have f2 : r2.user = some f := by
    rw [e1, e2] at hu
    simp only [List.map_cons, List.cons.injEq] at hu
    rw [← hu.1, f1]
  obtain ⟨us1, a1, m1, c1⟩ := C60_entries op1 n1 tr1 b1 r1 rest1 e1 f f1 hs1
  obtain ⟨us2, a2, m2, c2⟩ := C60_entries op2 n2 tr2 b2 r2 rest2 e2 f f2 hs2
  have tpos : ∀ (tr : TimeRange) (rows : List SRow) (u : Int), 0 < times tr rows u →
      ∃ r ∈ rows, r.user = some u := by
    intro tr rows u h
    unfold times at h
    obtain ⟨r, hr, hp⟩ := List.countP_pos_iff.mp h
    simp only [Bool.and_eq_true, beq_iff_eq] at hp
    exact ⟨r, hr, hp.2⟩
  have mem1 : ∀ u, u ∈ us1 ↔ ∃ q ∈ b1.flatten, q.user = some u := by
    intro u
    rw [m1 u]
    constructor
    · rintro (rfl | h)
      · exact ⟨r1, by rw [e1]; simp, f1⟩
      · exact tpos _ _ _ h
    · rintro ⟨q, hq, hqu⟩; exact .inr (hit1 q hq u hqu)
  have mem2 : ∀ u, u ∈ us2 ↔ ∃ q ∈ b2.flatten, q.user = some u := by
    intro u
    rw [m2 u]
    constructor
    · rintro (rfl | h)
      · exact ⟨r2, by rw [e2]; simp, f2⟩
      · exact tpos _ _ _ h
    · rintro ⟨q, hq, hqu⟩; exact .inr (hit2 q hq u hqu)
  have same : ∀ u, (∃ q ∈ b1.flatten, q.user = some u) ↔ ∃ q ∈ b2.flatten, q.user = some u := by
    intro u
    have h1 : some u ∈ b1.flatten.map SRow.user ↔ ∃ q ∈ b1.flatten, q.user = some u :=
      List.mem_map
    have h2 : some u ∈ b2.flatten.map SRow.user ↔ ∃ q ∈ b2.flatten, q.user = some u :=
      List.mem_map
    rw [← h1, ← h2, hu]
  have hus : us1 = us2 := asc_eq a1 a2 (fun x => by rw [mem1, mem2, same])
  subst hus
  rw [← e1, ← e2]
  refine ⟨_, _, c1, c2, ?_, ?_⟩
  · intro u
    rw [segAnd_map, ← holds_iff, ← holds_iff, ← mem1 u]
    constructor
    · intro h
      obtain ⟨x, hx, e⟩ := List.mem_map.mp h
      split at e
      next hc => cases e; exact ⟨hx, by simpa using hc⟩
      next => cases e
    · rintro ⟨hx, h1, h2⟩
      exact List.mem_map.mpr ⟨u, hx, by rw [h1, h2]; rfl⟩
  · intro u
    rw [segOr_map, ← holds_iff, ← holds_iff, ← mem1 u]
    constructor
    · intro h
      obtain ⟨x, hx, e⟩ := List.mem_map.mp h
      split at e
      next hc => cases e; exact ⟨hx, by simpa using hc⟩
      next => cases e
    · rintro ⟨hx, h1⟩
      refine List.mem_map.mpr ⟨u, hx, ?_⟩
      rw [if_pos]
      rcases h1 with h | h <;> rw [h] <;> simp

/-- Two predicates over the same three users. -/
def exP : List SRow := [⟨some 1, 1, some true⟩, ⟨some 2, 1, some true⟩, ⟨some 3, 1, some false⟩]
def exQ : List SRow := [⟨some 1, 1, some true⟩, ⟨some 2, 1, some false⟩, ⟨some 3, 1, some true⟩]

/-- C61 is false in general: users 1 and 2 satisfy the first predicate, users 1 and 3 the second;
their conjunction contains user 2. -/
theorem C61_violated :
    segCount .gtEq 1 .none [exP] = some [some 1, some 2] ∧
    segCount .gtEq 1 .none [exQ] = some [some 1, some 3] ∧
    segAnd [some 1, some 2] [some 1, some 3] = [some 1, some 2] := by decide +kernel

/-- A run in which both predicates have hits for all users: at least one event, at most one. -/
example : (∀ r ∈ exP.take 2, ∀ u, r.user = some u → 0 < times .none (exP.take 2) u) ∧
    segCount .gtEq 1 .none [exP.take 2] = some [some 1, some 2] ∧
    segCount .ltEq 1 .none [exP.take 1, (exP.drop 1).take 1] = some [some 1, some 2] ∧
    segAnd [some 1, some 2] [some 1, some 2] = [some 1, some 2] := by
  refine ⟨?_, by decide +kernel, by decide +kernel, by decide⟩
  intro r hr u hu
  simp [exP] at hr
  rcases hr with rfl | rfl <;> cases hu <;> decide +kernel

/-! ### Segments of a query -/

/-- C83, the part that holds: with at least two segments whose predicates hold for all their listed
users, the results of all segments but the last are restricted to their users. -/
theorem C83_partial (segments : List (List Int)) (last : List (Option Int))
    (hne : segments ≠ []) :
    segmentSets (segments.map (fun l => l.map some) ++ [last]) = some (segments.map some) := by
  have hcol : ∀ l : List Int, collectSegment (l.map some) = some l := by
    intro l
    induction l with
    | nil => rfl
    | cons u l ih => simp [collectSegment, ih]
  have hp : plannedSegments [] (segments.map (fun l => l.map some) ++ [last]) =
      segments.map (fun l => l.map (some : Int → Option Int)) := by
    unfold plannedSegments
    rw [List.length_append, List.length_map, List.length_singleton, List.take_succ_cons]
    rw [List.drop_succ_cons, List.drop_zero, List.take_append_of_le_length (by simp)]
    rw [List.take_of_length_le (by simp)]
  unfold segmentSets
  rw [hp]
  cases hs : segments with
  | nil => exact absurd hs hne
  | cons a l =>
    simp only [List.map_cons]
    have hM : ∀ l : List (List Int), (l.map (fun l => l.map (some : Int → Option Int))).mapM
        collectSegment = some l := by
      intro l
      induction l with
      | nil => rfl
      | cons a l ih => rw [List.map_cons, List.mapM_cons, hcol, ih]; rfl
    have := hM (a :: l)
    rw [List.map_cons] at this
    rw [this]; rfl

/-- C83 is false: a single segment does not restrict the query at all, and a user not in a segment
makes the query panic. -/
theorem C83_violated :
    segmentSets [[some 1]] = some [none] ∧
    segmentSets [[some 1, none], [some 1]] = none := by decide

end OptiPrism.Query
