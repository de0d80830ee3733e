import Verif.Query.Time

/-!
# C66: time buckets

Spec: a moment begins an hour, a day, an ISO week, a month or a year (`Begins`). Truncation must give
the latest such moment which is not later; the columns of a query must contain the bucket of every
moment of the queried range.
-/

namespace OptiPrism.Query

/-- Moments at which an hour / day / week (Monday) / month / year begins. -/
def Begins : Unit' → Int → Prop
  | .hour, t => ∃ k : Int, t = k * nsHour
  | .day, t => ∃ n : Int, t = midnight n
  | .week, t => ∃ k : Int, t = midnight (7 * k)
  | .month, t => ∃ (y : Int) (m : Nat), 1 ≤ m ∧ m ≤ 12 ∧ t = midnight (dayNum y m 1)
  | .year, t => ∃ y : Int, t = midnight (dayNum y 1 1)

/-! ### helpers -/

theorem floor3 (t : Int) : withMinute0 (withSecond0 (withNanosecond0 t)) = t / nsHour * nsHour := by
  unfold withMinute0 withSecond0 withNanosecond0 nsHour nsMin nsSec
  omega

theorem floorHour (a : Int) : withHour0 (a / nsHour * nsHour) = a / nsDay * nsDay := by
  unfold withHour0 nsHour nsDay
  omega

theorem floor4 (t : Int) :
    withHour0 (withMinute0 (withSecond0 (withNanosecond0 t))) = t / nsDay * nsDay := by
  rw [floor3, floorHour]

theorem floor_midnight (t : Int) : t / nsDay * nsDay = midnight (dayAt t) := by
  unfold midnight dayAt nsDay; omega

theorem dayAt_midnight (n : Int) : dayAt (midnight n) = n := by
  unfold midnight dayAt nsDay; omega

theorem midnight_mod (n : Int) : midnight n % nsDay = 0 := by
  unfold midnight nsDay; omega

theorem midnight_le {a b : Int} : midnight a ≤ midnight b ↔ a ≤ b := by
  unfold midnight nsDay; omega

theorem midnight_le_iff (n t : Int) : midnight n ≤ t ↔ n ≤ dayAt t := by
  unfold midnight dayAt nsDay; omega

theorem midnight_inj {a b : Int} : midnight a = midnight b ↔ a = b := by
  unfold midnight nsDay; omega

theorem trunc_hour (t : Int) : dateTrunc .hour t = t / nsHour * nsHour := floor3 t

theorem trunc_day (t : Int) : dateTrunc .day t = midnight (dayAt t) := by
  show withHour0 _ = _
  rw [floor4, floor_midnight]

theorem trunc_week (t : Int) : dateTrunc .week t = midnight (7 * (dayAt t / 7)) := by
  show (withHour0 _ - 60 * 60 * 24 * weekday (withHour0 _) * nsSec) = _
  rw [floor4, floor_midnight]
  unfold weekday
  rw [dayAt_midnight]
  unfold midnight nsDay nsSec
  omega

theorem withDay00_eq (t : Int) (h : t % nsDay = 0) :
    withDay00 t = midnight (dayNum (yearOf (dayAt t)) (monthOf (dayAt t)) 1) := by
  unfold withDay00; omega

theorem trunc_month (t : Int) :
    dateTrunc .month t = midnight (dayNum (yearOf (dayAt t)) (monthOf (dayAt t)) 1) := by
  show withDay00 _ = _
  rw [floor4, floor_midnight, withDay00_eq _ (midnight_mod _), dayAt_midnight]

theorem trunc_year (t : Int) : dateTrunc .year t = midnight (dayNum (yearOf (dayAt t)) 1 1) := by
  show withMonth00 (withDay00 _) = _
  rw [floor4, floor_midnight, withDay00_eq _ (midnight_mod _), dayAt_midnight]
  unfold withMonth00
  rw [dayAt_midnight, midnight_mod]
  obtain ⟨a, b, c, d, _⟩ := civil_spec (dayAt t)
  obtain ⟨e, _, g⟩ := dayNum_civil (y := yearOf (dayAt t)) (d := 1) a b (by omega)
    (by have := monthLen_pos (yearOf (dayAt t)) (monthOf (dayAt t)); omega)
  rw [e, g]; omega

theorem dayNum_month {y : Int} {m : Nat} (h1 : 1 ≤ m) (h2 : m ≤ 12) :
    dayNum y m 1 = monthStart (12 * y + (m - 1 : Nat)) := by
  unfold monthStart
  rw [show (12 * y + ((m - 1 : Nat) : Int)) / 12 = y by omega,
    show ((12 * y + ((m - 1 : Nat) : Int)) % 12).toNat + 1 = m by omega]

theorem monthStart_dayNum (k : Int) : ∃ (y : Int) (m : Nat), 1 ≤ m ∧ m ≤ 12 ∧ monthStart k = dayNum y m 1 :=
  ⟨k / 12, (k % 12).toNat + 1, by omega, by omega, rfl⟩

/-- The month index of a day. -/
def monthIdx (n : Int) : Int := 12 * yearOf n + (monthOf n - 1 : Nat)

theorem monthIdx_spec (n : Int) : monthStart (monthIdx n) ≤ n ∧ n < monthStart (monthIdx n + 1) := by
  obtain ⟨a, b, c, d, e⟩ := civil_spec n
  unfold monthIdx
  rw [monthStart_succ, ← dayNum_month a b]
  have hd : (12 * yearOf n + ((monthOf n - 1 : Nat) : Int)) / 12 = yearOf n := by omega
  have hm : ((12 * yearOf n + ((monthOf n - 1 : Nat) : Int)) % 12).toNat + 1 = monthOf n := by omega
  rw [hd, hm]
  unfold dayNum at *
  omega

theorem trunc_month' (t : Int) : dateTrunc .month t = midnight (monthStart (monthIdx (dayAt t))) := by
  obtain ⟨a, b, _⟩ := civil_spec (dayAt t)
  rw [trunc_month, dayNum_month a b]; rfl

theorem dayNum_year (y : Int) : dayNum y 1 1 = yearStart y := by
  unfold dayNum
  rw [show cum y 1 = 0 from rfl]; omega

/-- **C66 (truncation).** The truncation of a moment is the latest bucket start not after it. -/
theorem C66_trunc (u : Unit') (t : Int) :
    Begins u (dateTrunc u t) ∧ dateTrunc u t ≤ t ∧ ∀ b, Begins u b → b ≤ t → b ≤ dateTrunc u t := by
  cases u with
  | hour =>
    rw [trunc_hour]
    refine ⟨⟨_, rfl⟩, by unfold nsHour; omega, ?_⟩
    rintro b ⟨k, rfl⟩ h
    unfold nsHour at *; omega
  | day =>
    rw [trunc_day]
    refine ⟨⟨_, rfl⟩, (midnight_le_iff _ _).2 (Int.le_refl _), ?_⟩
    rintro b ⟨k, rfl⟩ h
    exact midnight_le.2 ((midnight_le_iff _ _).1 h)
  | week =>
    rw [trunc_week]
    refine ⟨⟨_, rfl⟩, (midnight_le_iff _ _).2 (by omega), ?_⟩
    rintro b ⟨k, rfl⟩ h
    have := (midnight_le_iff _ _).1 h
    exact midnight_le.2 (by omega)
  | month =>
    obtain ⟨a, b, _⟩ := civil_spec (dayAt t)
    refine ⟨⟨_, _, a, b, trunc_month t⟩, ?_, ?_⟩
    · rw [trunc_month']
      exact (midnight_le_iff _ _).2 (monthIdx_spec _).1
    · rintro b ⟨y, m, h1, h2, rfl⟩ h
      have h := (midnight_le_iff _ _).1 h
      rw [trunc_month', midnight_le]
      rw [dayNum_month h1 h2] at h ⊢
      have := (monthIdx_spec (dayAt t)).2
      have h3 := monthStart_le_iff (a := monthIdx (dayAt t) + 1) (b := 12 * y + ((m - 1 : Nat) : Int))
      apply monthStart_le_iff.2
      omega
  | year =>
    refine ⟨⟨_, trunc_year t⟩, ?_, ?_⟩
    · rw [trunc_year, dayNum_year]
      exact (midnight_le_iff _ _).2 (yearOf_spec _).1
    · rintro b ⟨y, rfl⟩ h
      have h := (midnight_le_iff _ _).1 h
      rw [trunc_year, midnight_le]
      rw [dayNum_year] at h ⊢
      rw [dayNum_year]
      have := (yearOf_spec (dayAt t)).2
      apply yearStart_mono
      rcases Int.lt_or_le (yearOf (dayAt t)) y with g | g
      · have := yearStart_mono (show yearOf (dayAt t) + 1 ≤ y by omega); omega
      · exact g

/-- **C66 (idempotent).** -/
theorem C66_idempotent (u : Unit') (t : Int) : dateTrunc u (dateTrunc u t) = dateTrunc u t := by
  obtain ⟨a, _, _⟩ := C66_trunc u t
  obtain ⟨_, e, f⟩ := C66_trunc u (dateTrunc u t)
  have := f _ a (Int.le_refl _)
  omega

/-- **C66 (monotone).** -/
theorem C66_monotone (u : Unit') {s t : Int} (h : s ≤ t) : dateTrunc u s ≤ dateTrunc u t := by
  obtain ⟨a, b, _⟩ := C66_trunc u s
  exact (C66_trunc u t).2.2 _ a (by omega)

/-- Truncation fixes bucket starts. -/
theorem trunc_begins {u : Unit'} {b : Int} (h : Begins u b) : dateTrunc u b = b := by
  obtain ⟨_, e, f⟩ := C66_trunc u b
  have := f b h (Int.le_refl _)
  omega

/-! ### shifting by months -/

theorem shift_ym {y m j : Int} (h1 : 1 ≤ m) (h2 : m ≤ 12) :
    (let s := m + j
     let year := y + s.tdiv 12
     let month := s.tmod 12
     let ym : Int × Int := if month < 1 then (year - 1, month + 12) else (year, month)
     ym) = ((12 * y + (m - 1) + j) / 12, (12 * y + (m - 1) + j) % 12 + 1) := by
  dsimp only
  have hs : (m + j).tmod 12 = (m + j) - 12 * ((m + j).tdiv 12) := Int.tmod_def _ _
  rcases Int.lt_or_le (m + j) 0 with h | h
  · have e : (m + j).tdiv 12 = -((-(m + j)) / 12) := by
      have h3 := Int.neg_tdiv (a := m + j) (b := 12)
      have h4 := Int.tdiv_eq_ediv_of_nonneg (a := -(m + j)) (b := 12) (by omega)
      omega
    rw [hs, e]
    split <;> (apply Prod.ext <;> dsimp only <;> omega)
  · have e : (m + j).tdiv 12 = (m + j) / 12 := Int.tdiv_eq_ediv_of_nonneg h
    rw [hs, e]
    split <;> (apply Prod.ext <;> dsimp only <;> omega)

/-- What shifting by months does: the month index moves by the shift, the day is kept if the target
month has it. -/
theorem shiftMonths_eq (t j : Int) :
    shiftMonths t j =
      (let k := monthIdx (dayAt t) + j
       midnight (dayNum (k / 12) ((k % 12).toNat + 1)
         (min (dayOf (dayAt t)) (monthLen (k / 12) ((k % 12).toNat + 1)))) + t % nsDay) := by
  obtain ⟨a, b, _⟩ := civil_spec (dayAt t)
  have h := shift_ym (y := yearOf (dayAt t)) (m := monthOf (dayAt t)) (j := j) (by omega) (by omega)
  unfold shiftMonths
  dsimp only at h ⊢
  rw [h]
  have e : 12 * yearOf (dayAt t) + ((monthOf (dayAt t) : Int) - 1) + j = monthIdx (dayAt t) + j := by
    unfold monthIdx; omega
  rw [e]
  have e2 : ((monthIdx (dayAt t) + j) % 12 + 1).toNat = ((monthIdx (dayAt t) + j) % 12).toNat + 1 := by omega
  dsimp only
  rw [e2]

theorem civil_monthStart (k : Int) : monthIdx (monthStart k) = k ∧ dayOf (monthStart k) = 1 := by
  have h := dayNum_civil (y := k / 12) (m := (k % 12).toNat + 1) (d := 1) (by omega) (by omega) (by omega)
    (by have := monthLen_pos (k / 12) ((k % 12).toNat + 1); omega)
  obtain ⟨h1, h2, h3⟩ := h
  unfold monthIdx
  rw [show monthStart k = dayNum (k / 12) ((k % 12).toNat + 1) 1 from rfl, h1, h2, h3]
  omega

theorem shift_start (k j : Int) :
    shiftMonths (midnight (monthStart k)) j = midnight (monthStart (k + j)) := by
  rw [shiftMonths_eq, dayAt_midnight, midnight_mod, (civil_monthStart k).1, (civil_monthStart k).2]
  dsimp only
  rw [Int.min_eq_left (by have := monthLen_pos ((k + j) / 12) (((k + j) % 12).toNat + 1); omega)]
  show midnight (monthStart (k + j)) + 0 = _
  omega

theorem shift_zero_trunc (t : Int) : shiftMonths t 0 = t := by
  rw [shiftMonths_eq]
  obtain ⟨a, b, c, d, e⟩ := civil_spec (dayAt t)
  dsimp only
  have h1 : (monthIdx (dayAt t) + 0) / 12 = yearOf (dayAt t) := by unfold monthIdx; omega
  have h2 : ((monthIdx (dayAt t) + 0) % 12).toNat + 1 = monthOf (dayAt t) := by unfold monthIdx; omega
  rw [h1, h2, Int.min_eq_left d, e]
  unfold midnight dayAt nsDay
  omega

/-! ### the columns of a query -/

/-- The number of a bucket. -/
def nthStart : Unit' → Int → Int
  | .hour, k => k * nsHour
  | .day, k => midnight k
  | .week, k => midnight (7 * k)
  | .month, k => midnight (monthStart k)
  | .year, k => midnight (yearStart k)

theorem begins_iff (u : Unit') (t : Int) : Begins u t ↔ ∃ k, t = nthStart u k := by
  cases u with
  | hour => exact Iff.rfl
  | day => exact Iff.rfl
  | week => exact Iff.rfl
  | month =>
    constructor
    · rintro ⟨y, m, h1, h2, rfl⟩
      exact ⟨_, by rw [dayNum_month h1 h2]; rfl⟩
    · rintro ⟨k, rfl⟩
      obtain ⟨y, m, h1, h2, e⟩ := monthStart_dayNum k
      exact ⟨y, m, h1, h2, by rw [← e]; rfl⟩
  | year =>
    constructor
    · rintro ⟨y, rfl⟩; exact ⟨y, by rw [dayNum_year]; rfl⟩
    · rintro ⟨y, rfl⟩; exact ⟨y, by rw [dayNum_year]; rfl⟩

theorem nth_lt (u : Unit') {a b : Int} (h : a < b) : nthStart u a + nsHour ≤ nthStart u b := by
  cases u with
  | hour => unfold nthStart nsHour; dsimp only; omega
  | day => unfold nthStart midnight nsHour nsDay; dsimp only; omega
  | week => unfold nthStart midnight nsHour nsDay; dsimp only; omega
  | month =>
    have := monthStart_lt h
    unfold nthStart midnight nsHour nsDay; dsimp only; omega
  | year =>
    have := yearStart_lt h
    unfold nthStart midnight nsHour nsDay; dsimp only; omega

theorem nth_lt_iff (u : Unit') {a b : Int} : nthStart u a < nthStart u b ↔ a < b := by
  rcases Int.lt_trichotomy a b with h | h | h
  · have := nth_lt u h; unfold nsHour at this; omega
  · subst h; omega
  · have := nth_lt u h; unfold nsHour at this; omega

theorem nth_add (u : Unit') (a : Int) (n : Nat) : nthStart u a + n * nsHour ≤ nthStart u (a + n) := by
  induction n with
  | zero => simp
  | succ n ih =>
    have := nth_lt u (show a + n < a + n + 1 by omega)
    rw [show a + ((n + 1 : Nat) : Int) = a + n + 1 by omega]
    unfold nsHour at *; omega

theorem ruleAt_nth (u : Unit') (a : Int) (k : Nat) : ruleAt u (nthStart u a) k = nthStart u (a + k) := by
  cases u with
  | hour => unfold ruleAt nthStart nsHour; dsimp only; omega
  | day => unfold ruleAt nthStart midnight nsDay; dsimp only; omega
  | week => unfold ruleAt nthStart midnight nsDay; dsimp only; omega
  | month => exact shift_start a k
  | year =>
    show shiftMonths (midnight (yearStart a)) (12 * k) = midnight (yearStart (a + k))
    rw [← monthStart_year, shift_start, show 12 * a + 12 * (k : Int) = 12 * (a + k) by omega, monthStart_year]

theorem plusOne_nth (u : Unit') (a : Int) : plusOne u (nthStart u a) = nthStart u (a + 1) := by
  cases u with
  | hour => unfold plusOne addRel nthStart nsHour; dsimp only; rw [shift_zero_trunc]; omega
  | day => unfold plusOne addRel nthStart midnight nsDay; dsimp only; rw [shift_zero_trunc]; omega
  | week => unfold plusOne addRel nthStart midnight nsDay; dsimp only; rw [shift_zero_trunc]; omega
  | month =>
    show shiftMonths _ 1 + 0 = _
    rw [show nthStart .month a = midnight (monthStart a) from rfl, shift_start]
    exact Int.add_zero _
  | year =>
    show shiftMonths (midnight (yearStart a)) 12 + 0 = midnight (yearStart (a + 1))
    rw [← monthStart_year, shift_start, show 12 * a + 12 = 12 * (a + 1) by omega, monthStart_year]
    omega

theorem takeWhile_range_map {f : Nat → Int} {stop : Int} {N M : Nat}
    (hlt : ∀ k, k < M → f k < stop) (hge : ¬ f M < stop) (hM : M ≤ N) :
    ((List.range N).map f).takeWhile (· < stop) = (List.range M).map f := by
  have split : List.range N = List.range M ++ (List.range (N - M)).map (M + ·) := by
    conv => lhs; rw [show N = M + (N - M) by omega, List.range_add]
  rw [split, List.map_append, List.takeWhile_append_of_pos]
  · cases h : N - M with
    | zero => simp
    | succ n =>
      rw [List.range_succ_eq_map]
      simp [hge]
  · intro x hx
    obtain ⟨k, hk, rfl⟩ := List.mem_map.1 hx
    simpa using hlt k (List.mem_range.1 hk)

/-- The columns are the bucket starts from the one of `from` to the one of `to`, in order. -/
theorem timeColumns_eq (u : Unit') {a b : Int} (from_ to : Int) (ha : dateTrunc u from_ = nthStart u a)
    (hb : dateTrunc u to = nthStart u b) :
    timeColumns from_ to u = (List.range (b + 1 - a).toNat).map fun (k : Nat) => nthStart u (a + k) := by
  unfold timeColumns ruleList
  dsimp only
  rw [ha, hb, plusOne_nth]
  have hf : ruleAt u (nthStart u a) = fun (k : Nat) => nthStart u (a + k) := by
    funext k; exact ruleAt_nth u a k
  rw [hf]
  rcases Int.lt_or_le a (b + 1) with h | h
  · apply takeWhile_range_map
    · intro k hk
      exact (nth_lt_iff u).2 (by omega)
    · intro hc
      have := (nth_lt_iff u).1 hc
      omega
    · have := nth_add u a (b + 1 - a).toNat
      rw [show a + ((b + 1 - a).toNat : Int) = b + 1 by omega] at this
      unfold nsHour at *; omega
  · rw [show (b + 1 - a).toNat = 0 by omega]
    have hc : ∀ k : Nat, ¬ nthStart u (a + k) < nthStart u (b + 1) := fun k hk => by
      have := (nth_lt_iff u).1 hk; omega
    cases (((nthStart u (b + 1) - nthStart u a) / nsHour + 1).toNat) with
    | zero => rfl
    | succ n =>
      rw [List.range_succ_eq_map]
      have := hc 0
      simp at this
      simp [this]

/-- **C66 (coverage).** The bucket of every moment of the queried range is one of the columns of the
query; the columns are bucket starts between the two ends, in strictly increasing order, and every
bucket start between the two ends is a column. -/
theorem C66_columns (u : Unit') (from_ to : Int) :
    (∀ ts, from_ ≤ ts → ts ≤ to → dateTrunc u ts ∈ timeColumns from_ to u) ∧
    (∀ c, c ∈ timeColumns from_ to u ↔ Begins u c ∧ dateTrunc u from_ ≤ c ∧ c ≤ to) ∧
    (timeColumns from_ to u).Pairwise (· < ·) := by
  obtain ⟨a, ha⟩ := (begins_iff u _).1 (C66_trunc u from_).1
  obtain ⟨b, hb⟩ := (begins_iff u _).1 (C66_trunc u to).1
  have hmem : ∀ c, c ∈ timeColumns from_ to u ↔ Begins u c ∧ dateTrunc u from_ ≤ c ∧ c ≤ to := by
    intro c
    rw [timeColumns_eq u from_ to ha hb, List.mem_map]
    constructor
    · rintro ⟨k, hk, rfl⟩
      have hk := List.mem_range.1 hk
      refine ⟨(begins_iff u _).2 ⟨_, rfl⟩, ?_, ?_⟩
      · rw [ha]
        have := nth_lt_iff u (a := a + k) (b := a); omega
      · have h1 := (C66_trunc u to).2.1
        have := nth_lt_iff u (a := b) (b := a + k)
        rw [hb] at h1; omega
    · rintro ⟨hbeg, h1, h2⟩
      obtain ⟨j, rfl⟩ := (begins_iff u _).1 hbeg
      have h3 := (C66_trunc u to).2.2 _ hbeg h2
      rw [hb] at h3; rw [ha] at h1
      have e1 := nth_lt_iff u (a := j) (b := a)
      have e2 := nth_lt_iff u (a := b) (b := j)
      exact ⟨(j - a).toNat, List.mem_range.2 (by omega), by
        show nthStart u (a + ((j - a).toNat : Int)) = nthStart u j
        congr 1; omega⟩
  refine ⟨?_, hmem, ?_⟩
  · intro ts h1 h2
    refine (hmem _).2 ⟨(C66_trunc u ts).1, C66_monotone u h1, ?_⟩
    have := (C66_trunc u ts).2.1
    omega
  · rw [timeColumns_eq u from_ to ha hb, List.pairwise_map]
    exact List.pairwise_lt_range.imp fun h => (nth_lt_iff u).2 (by omega)

/-- 2024-01-31T10:00 to 2024-03-01T09:00 has the columns January, February and March. -/
example : timeColumns (midnight (dayNum 2024 1 31) + 10 * nsHour) (midnight (dayNum 2024 3 1) + 9 * nsHour) .month
    = [midnight (dayNum 2024 1 1), midnight (dayNum 2024 2 1), midnight (dayNum 2024 3 1)] := by
  decide +kernel

/-! ### the buckets of a funnel -/

/-- **C66 (funnels, part).** By hour, day or week the buckets of a funnel contain the bucket of every
moment of the range. Missing: months and years, where the code steps by 31 and 372 days. -/
theorem C66_funnel_partial (u : Unit') (hu : u = .hour ∨ u = .day ∨ u = .week) (from_ to ts : Int)
    (h1 : from_ ≤ ts) (h2 : ts ≤ to) :
    millis (dateTrunc u ts) ∈ funnelBuckets (some u) from_ to := by
  have m1 := C66_monotone u h1
  have m2 := C66_monotone u h2
  unfold funnelBuckets
  dsimp only
  obtain ⟨a, ha⟩ := (begins_iff u _).1 (C66_trunc u from_).1
  obtain ⟨b, hb⟩ := (begins_iff u _).1 (C66_trunc u to).1
  obtain ⟨c, hc⟩ := (begins_iff u _).1 (C66_trunc u ts).1
  rw [ha, hb, hc]
  rw [ha, hc] at m1; rw [hb, hc] at m2
  have i1 := nth_lt_iff u (a := c) (b := a)
  have i2 := nth_lt_iff u (a := b) (b := c)
  have hd : ∃ d, millis (unitDuration u 1) = d ∧ 0 < d ∧ ∀ j, millis (nthStart u j) = millis (nthStart u a) + (j - a) * d := by
    rcases hu with rfl | rfl | rfl
    · exact ⟨3600000, by decide, by decide, fun j => by unfold millis nthStart nsHour nsMs; dsimp only; omega⟩
    · exact ⟨86400000, by decide, by decide, fun j => by unfold millis nthStart midnight nsDay nsMs; dsimp only; omega⟩
    · exact ⟨604800000, by decide, by decide, fun j => by unfold millis nthStart midnight nsDay nsMs; dsimp only; omega⟩
  obtain ⟨d, e1, e2, e3⟩ := hd
  rw [e1, e3 b, e3 c]
  have e4 : (millis (nthStart u a) + (b - a) * d - millis (nthStart u a)) / d = b - a := by
    rw [show millis (nthStart u a) + (b - a) * d - millis (nthStart u a) = (b - a) * d by omega]
    exact Int.mul_ediv_cancel _ (by omega)
  rw [e4]
  have hmem : millis (nthStart u a) + (c - a) * d ∈
      (List.range (b - a + 1).toNat).map fun (k : Nat) => millis (nthStart u a) + (k : Int) * d :=
    List.mem_map.2 ⟨(c - a).toNat, List.mem_range.2 (by omega), by
      show millis (nthStart u a) + ((c - a).toNat : Int) * d = _
      rw [Int.toNat_of_nonneg (by omega)]⟩
  split
  · rename_i hem
    rw [List.isEmpty_iff] at hem
    rw [hem] at hmem
    cases hmem
  · exact hmem

/-- **C66 (monthly funnels, part).** The month in which a funnel starts has its bucket, and so has the next one if the first has 31 days. -/
theorem C66_funnel_month_partial {from_ to ts : Int} (h1 : from_ ≤ ts) (h2 : ts ≤ to)
    (h : dateTrunc .month ts = dateTrunc .month from_ ∨ dateTrunc .month ts = dateTrunc .month from_ + 31 * nsDay) :
    millis (dateTrunc .month ts) ∈ funnelBuckets (some .month) from_ to := by
  have m1 := C66_monotone .month h1
  have m2 := C66_monotone .month h2
  unfold funnelBuckets
  dsimp only
  have e1 : millis (unitDuration .month 1) = 31 * 86400000 := by decide
  rw [e1]
  generalize hf : dateTrunc .month from_ = f at *
  generalize ht : dateTrunc .month to = t at *
  generalize hs : dateTrunc .month ts = s at *
  have hfm : millis f ≤ millis s ∧ millis s ≤ millis t := by unfold millis nsMs; omega
  have hmem : millis s ∈ (List.range ((millis t - millis f) / (31 * 86400000) + 1).toNat).map fun (k : Nat) => millis f + (k : Int) * (31 * 86400000) := by
    rcases h with rfl | rfl
    · exact List.mem_map.2 ⟨0, List.mem_range.2 (by omega), by simp⟩
    · have e2 : millis (f + 31 * nsDay) = millis f + 31 * 86400000 := by unfold millis nsMs nsDay; omega
      rw [e2] at hfm ⊢
      exact List.mem_map.2 ⟨1, List.mem_range.2 (by omega), by simp⟩
  split
  · rename_i hem
    rw [List.isEmpty_iff] at hem
    rw [hem] at hmem
    cases hmem
  · exact hmem

example : dateTrunc .month (midnight (dayNum 2023 2 10)) = dateTrunc .month (midnight (dayNum 2023 1 5)) + 31 * nsDay := by decide +kernel

/-- **C66 is violated by monthly and yearly funnels.** From 1 January to 30 April 2023 the monthly
buckets start on 1 January, 1 February and 4 March: 1 March, the bucket of a moment in March, is not
among them; likewise the year 2024 in a funnel from 2023 to 2024. -/
theorem C66_funnel_violated :
    (∃ from_ to ts, from_ ≤ ts ∧ ts ≤ to ∧
      millis (dateTrunc .month ts) ∉ funnelBuckets (some .month) from_ to) ∧
    (∃ from_ to ts, from_ ≤ ts ∧ ts ≤ to ∧
      millis (dateTrunc .year ts) ∉ funnelBuckets (some .year) from_ to) := by
  refine ⟨⟨midnight (dayNum 2023 1 1), midnight (dayNum 2023 4 30), midnight (dayNum 2023 3 15), ?_⟩,
    ⟨midnight (dayNum 2023 1 1), midnight (dayNum 2024 12 31), midnight (dayNum 2024 3 15), ?_⟩⟩ <;>
    decide +kernel

end OptiPrism.Query
