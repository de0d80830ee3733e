import Verif.Ingest.Generator

/-!
# C159: the users of the demo store
-/

namespace OptiPrism.Ingest

/-- Spec: `D` days are begun between the two moments. -/
def DaysBegun (from_ to : Int) (D : Nat) : Prop := ((D : Int) - 1) * 86400 < to - from_ ∧ to - from_ ≤ (D : Int) * 86400

/-- Spec: the moment of user number `i` of `N` a day. -/
def MomentOf (from_ : Int) (N i : Nat) (d : Draw) (ts : Int) : Prop :=
  ts = from_ + ((i / N : Nat) : Int) * 86400 + (d.hour.val : Int) * 3600 + (d.minute.val : Int) * 60

/-- C159 as stated: as many users come as are asked for, all of them in the time asked for. -/
def C159_full : Prop := ∀ (from_ to : Int) (N D : Nat) (g : Gen) (ds : List Draw), Gen.new from_ to N = some g → DaysBegun from_ to D → 0 < N →
  D * N ≤ ds.length → (generate g ds).1.length = D * N ∧ ∀ ts ∈ (generate g ds).1, from_ ≤ ts ∧ ts < to

theorem gen_state {from_ to : Int} {N D : Nat} (hD : DaysBegun from_ to D) : ∀ (ds : List Draw) (q r : Nat), q < D → r < N →
    D * N - (q * N + r) ≤ ds.length → ∃ tss, generate ⟨from_ + q * 86400, to, N - r, N⟩ ds = (tss, .done) ∧
      tss.length = D * N - (q * N + r) - 1 ∧ ∀ (i : Nat) ts, tss[i]? = some ts → ∃ d, ds[i]? = some d ∧ MomentOf from_ N (q * N + r + i) d ts
  | [], q, r, hq, hr, hl => by
    exfalso
    have h1 : (q + 1) * N ≤ D * N := Nat.mul_le_mul_right N hq
    rw [Nat.add_mul, Nat.one_mul] at h1
    simp only [List.length_nil] at hl
    omega
  | d :: ds, q, r, hq, hr, hl => by
    have h1 : (q + 1) * N ≤ D * N := Nat.mul_le_mul_right N hq
    rw [Nat.add_mul, Nat.one_mul] at h1
    rw [List.length_cons] at hl
    have hdiv : (q * N + r + 0) / N = q := by
      rw [Nat.add_zero, Nat.mul_comm, Nat.mul_add_div (by omega), Nat.div_eq_of_lt hr, Nat.add_zero]
    have hnow : MomentOf from_ N (q * N + r + 0) d (from_ + q * 86400 + (d.hour.val : Int) * 3600 + (d.minute.val : Int) * 60) := by
      unfold MomentOf
      rw [hdiv]
    obtain ⟨hD1, hD2⟩ := hD
    -- the rest of the users
    have hrest : ∀ q' r', q' < D → r' < N → q' * N + r' = q * N + r + 1 →
        nextSample ⟨from_ + q * 86400, to, N - r, N⟩ d =
          .sample (from_ + q * 86400 + (d.hour.val : Int) * 3600 + (d.minute.val : Int) * 60) ⟨from_ + q' * 86400, to, N - r', N⟩ →
        ∃ tss, generate ⟨from_ + q * 86400, to, N - r, N⟩ (d :: ds) = (tss, .done) ∧ tss.length = D * N - (q * N + r) - 1 ∧
          ∀ (i : Nat) ts, tss[i]? = some ts → ∃ d', (d :: ds)[i]? = some d' ∧ MomentOf from_ N (q * N + r + i) d' ts := by
      intro q' r' hq' hr' he hn
      have h2 : (q' + 1) * N ≤ D * N := Nat.mul_le_mul_right N hq'
      rw [Nat.add_mul, Nat.one_mul] at h2
      obtain ⟨tss, e1, e2, e3⟩ := gen_state (N := N) ⟨hD1, hD2⟩ ds q' r' hq' hr' (by omega)
      refine ⟨(from_ + q * 86400 + (d.hour.val : Int) * 3600 + (d.minute.val : Int) * 60) :: tss, by rw [generate, hn]; simp only [e1],
        by rw [List.length_cons, e2]; omega, fun i ts hi => ?_⟩
      cases i with
      | zero =>
        cases hi
        exact ⟨d, rfl, hnow⟩
      | succ i =>
        obtain ⟨d', h3, h4⟩ := e3 i ts hi
        refine ⟨d', h3, ?_⟩
        rw [he] at h4
        rw [show q * N + r + (i + 1) = q * N + r + 1 + i by omega]
        exact h4
    by_cases hlast : r + 1 = N
    · by_cases hday : q + 1 = D
      · refine ⟨[], ?_, ?_, fun i ts hi => by simp at hi⟩
        · have hn : nextSample ⟨from_ + q * 86400, to, N - r, N⟩ d = .done := by
            unfold nextSample
            dsimp only
            rw [if_neg (by omega), if_pos (by omega), if_pos (by omega)]
          rw [generate, hn]
        · subst hday
          rw [List.length_nil, Nat.add_mul]
          omega
      · refine hrest (q + 1) 0 (by omega) (by omega) (by rw [Nat.add_mul]; omega) ?_
        unfold nextSample
        dsimp only
        rw [if_neg (by omega), if_pos (by omega), if_neg (by omega)]
        congr 2
        push_cast
        omega
    · refine hrest q (r + 1) hq (by omega) (by omega) ?_
      unfold nextSample
      dsimp only
      rw [if_neg (by omega), if_neg (by omega)]
      congr 2

/-- C159 (partial): each day that is begun has its users, at moments of that day, but for the last user of the last day. Missing: that user,
and that nobody comes after the end. -/
theorem C159_partial {from_ to : Int} {N D : Nat} {g : Gen} (hg : Gen.new from_ to N = some g) (hD : DaysBegun from_ to D) (hN : 0 < N)
    (ds : List Draw) (hl : D * N ≤ ds.length) :
    (generate g ds).2 = .done ∧ (generate g ds).1.length + 1 = D * N ∧
      ∀ (i : Nat) ts, (generate g ds).1[i]? = some ts → ∃ d, ds[i]? = some d ∧ MomentOf from_ N i d ts := by
  unfold Gen.new at hg
  split at hg
  · rename_i hlt
    cases hg
    have hDp : 0 < D := by
      obtain ⟨h1, h2⟩ := hD
      omega
    have hp : 0 < D * N := Nat.mul_pos hDp hN
    obtain ⟨tss, e1, e2, e3⟩ := gen_state (N := N) hD ds 0 0 hDp hN (by omega)
    have e : (⟨from_ + (0 : Nat) * 86400, to, N - 0, N⟩ : Gen) = ⟨from_, to, N, N⟩ := by simp
    rw [e] at e1
    rw [e1]
    refine ⟨rfl, by simp only [e2]; omega, fun i ts hi => ?_⟩
    obtain ⟨d, h1, h2⟩ := e3 i ts hi
    exact ⟨d, h1, by simpa using h2⟩
  · cases hg

/-- If the end is the end of a day, nobody comes after it, and nobody comes before the beginning in any case. -/
theorem C159_time {from_ to : Int} {N D : Nat} {g : Gen} (hg : Gen.new from_ to N = some g) (hD : DaysBegun from_ to D) (hN : 0 < N)
    (ds : List Draw) (hl : D * N ≤ ds.length) {ts : Int} (ht : ts ∈ (generate g ds).1) :
    from_ ≤ ts ∧ ts < from_ + D * 86400 ∧ (to = from_ + D * 86400 → ts < to) := by
  obtain ⟨-, h2, h3⟩ := C159_partial hg hD hN ds hl
  obtain ⟨i, hi⟩ := List.mem_iff_getElem?.mp ht
  obtain ⟨d, -, h4⟩ := h3 i ts hi
  have hlt := (List.getElem?_eq_some_iff.mp hi).1
  have hq : i / N < D := Nat.div_lt_of_lt_mul (by rw [Nat.mul_comm]; omega)
  have h5 := d.hour.isLt
  have h6 := d.minute.isLt
  unfold MomentOf at h4
  generalize i / N = q at h4 hq
  refine ⟨by omega, by omega, fun e => by omega⟩

/-- C159 fails: of all days that are asked for there is one user less than asked for and than the command says. -/
theorem C159_users_violated {from_ to : Int} {N D : Nat} {g : Gen} (hg : Gen.new from_ to N = some g) (hw : to = from_ + D * 86400) (hN : 0 < N)
    (ds : List Draw) (hl : D * N ≤ ds.length) : ((generate g ds).1.length : Int) = expectedUsers from_ to N - 1 := by
  have hD : DaysBegun from_ to D := ⟨by omega, by omega⟩
  obtain ⟨-, h, -⟩ := C159_partial hg hD hN ds hl
  have e : expectedUsers from_ to N = ((D * N : Nat) : Int) := by
    unfold expectedUsers
    rw [hw, show from_ + (D : Int) * 86400 - from_ = D * 86400 by omega, Int.mul_tdiv_cancel _ (by omega)]
    push_cast
    exact Int.mul_comm _ _
  rw [e]
  omega

/-- C159 fails: if the end is within a day, users come after it. -/
theorem C159_late_violated : ∃ (g : Gen) (ds : List Draw), Gen.new 0 3600 2 = some g ∧ DaysBegun 0 3600 1 ∧ generate g ds = ([82800], .done) :=
  ⟨⟨0, 3600, 2, 2⟩, [⟨23, 0⟩, ⟨0, 0⟩], rfl, ⟨by decide, by decide⟩, rfl⟩

/-- Without users a day the first call overflows. -/
theorem C159_none_violated {from_ to : Int} {g : Gen} (hg : Gen.new from_ to 0 = some g) (d : Draw) (ds : List Draw) :
    generate g (d :: ds) = ([], .panic) := by
  unfold Gen.new at hg
  split at hg
  · cases hg; rfl
  · cases hg

theorem C159_violated : ¬ C159_full := fun h => by
  have := (h 0 86400 1 1 ⟨0, 86400, 1, 1⟩ [⟨0, 0⟩] rfl ⟨by decide, by decide⟩ (by decide) (by decide)).1
  exact absurd this (by decide)

/-- Two days of two users. -/
example : generate ⟨0, 172800, 2, 2⟩ [⟨1, 0⟩, ⟨0, 1⟩, ⟨2, 0⟩, ⟨3, 0⟩] = ([3600, 60, 93600], .done) ∧ DaysBegun 0 172800 2 ∧
    ((generate ⟨0, 172800, 2, 2⟩ [⟨1, 0⟩, ⟨0, 1⟩, ⟨2, 0⟩, ⟨3, 0⟩]).1.length : Int) = expectedUsers 0 172800 2 - 1 := ⟨rfl, ⟨by decide, by decide⟩, by decide⟩

end OptiPrism.Ingest
