/-!
# The calendar behind `chrono`

Moments are nanoseconds since 1970-01-01T00:00:00Z (`DateTime<Utc>`); days are numbered from
0001-01-01 in the proleptic Gregorian calendar, which is what `chrono` uses. `chrono` itself is not
part of /repo: this file is the calendar it implements, given by year and month lengths. Leap
seconds (`nanosecond >= 10^9`) and the limits of `chrono` (years ±262000) are left out.
-/

namespace OptiPrism.Query

/-- Gregorian leap years. -/
def leap (y : Int) : Bool := y % 4 == 0 && (y % 100 != 0 || y % 400 == 0)

/-- Number of the first day of year `y`. -/
def yearStart (y : Int) : Int := 365 * (y - 1) + (y - 1) / 4 - (y - 1) / 100 + (y - 1) / 400

/-- Length of month `m` (1..12). -/
def monthLen (y : Int) (m : Nat) : Int :=
  match m with
  | 1 => 31 | 2 => if leap y then 29 else 28 | 3 => 31 | 4 => 30 | 5 => 31 | 6 => 30
  | 7 => 31 | 8 => 31 | 9 => 30 | 10 => 31 | 11 => 30 | _ => 31

/-- Days of year `y` before the first day of month `m` (1..12), and the length of the year for 13. -/
def cum (y : Int) (m : Nat) : Int :=
  let l : Int := if leap y then 1 else 0
  match m with
  | 0 => 0 | 1 => 0 | 2 => 31 | 3 => 59 + l | 4 => 90 + l | 5 => 120 + l | 6 => 151 + l | 7 => 181 + l
  | 8 => 212 + l | 9 => 243 + l | 10 => 273 + l | 11 => 304 + l | 12 => 334 + l | _ => 365 + l

/-- Number of the day `y-m-d`. -/
def dayNum (y : Int) (m : Nat) (d : Int) : Int := yearStart y + cum y m + (d - 1)

theorem yearStart_succ (y : Int) : yearStart (y + 1) = yearStart y + (if leap y then 366 else 365) := by
  unfold yearStart leap
  simp only [beq_iff_eq, bne_iff_ne, Bool.and_eq_true, Bool.or_eq_true]
  split <;> omega

theorem cum_succ (y : Int) {m : Nat} (h1 : 1 ≤ m) (h2 : m ≤ 12) :
    cum y (m + 1) = cum y m + monthLen y m := by
  have : m = 1 ∨ m = 2 ∨ m = 3 ∨ m = 4 ∨ m = 5 ∨ m = 6 ∨ m = 7 ∨ m = 8 ∨ m = 9 ∨ m = 10 ∨ m = 11 ∨ m = 12 := by
    omega
  unfold cum monthLen
  cases leap y <;> rcases this with h|h|h|h|h|h|h|h|h|h|h|h <;> subst h <;> rfl

theorem cum_year (y : Int) : cum y 13 = if leap y then 366 else 365 := by
  unfold cum; split <;> rfl

/-- 1970-01-01. -/
theorem yearStart_1970 : yearStart 1970 = 719162 := by decide +kernel

/-- The year a day lies in. -/
def yearOf (n : Int) : Int :=
  let e := n * 400 / 146097 + 1
  if yearStart (e + 1) ≤ n then e + 1 else if yearStart e ≤ n then e else e - 1

theorem yearOf_spec (n : Int) : yearStart (yearOf n) ≤ n ∧ n < yearStart (yearOf n + 1) := by
  unfold yearOf
  dsimp only
  split
  · rename_i h
    refine ⟨h, ?_⟩
    unfold yearStart at *; omega
  · split
    · rename_i h1 h2
      exact ⟨h2, by omega⟩
    · rename_i h1 h2
      refine ⟨?_, by rw [show n * 400 / 146097 + 1 - 1 + 1 = n * 400 / 146097 + 1 by omega]; omega⟩
      unfold yearStart at *; omega

theorem yearStart_mono {a b : Int} (h : a ≤ b) : yearStart a ≤ yearStart b := by
  unfold yearStart; omega

theorem yearStart_lt {a b : Int} (h : a < b) : yearStart a + 365 ≤ yearStart b := by
  unfold yearStart; omega

theorem yearOf_unique {n y : Int} (h1 : yearStart y ≤ n) (h2 : n < yearStart (y + 1)) : yearOf n = y := by
  obtain ⟨s1, s2⟩ := yearOf_spec n
  rcases Int.lt_trichotomy (yearOf n) y with h | h | h
  · have := yearStart_mono (show yearOf n + 1 ≤ y by omega); omega
  · exact h
  · have := yearStart_mono (show y + 1 ≤ yearOf n by omega); omega

/-- The month of day `k` (from 0) of year `y`. -/
def monthIn (y k : Int) : Nat :=
  if k < cum y 2 then 1 else if k < cum y 3 then 2 else if k < cum y 4 then 3 else
  if k < cum y 5 then 4 else if k < cum y 6 then 5 else if k < cum y 7 then 6 else
  if k < cum y 8 then 7 else if k < cum y 9 then 8 else if k < cum y 10 then 9 else
  if k < cum y 11 then 10 else if k < cum y 12 then 11 else 12

theorem monthIn_spec (y : Int) {k : Int} (h0 : 0 ≤ k) (h1 : k < cum y 13) :
    1 ≤ monthIn y k ∧ monthIn y k ≤ 12 ∧ cum y (monthIn y k) ≤ k ∧ k < cum y (monthIn y k + 1) := by
  have hc1 : cum y 1 = 0 := rfl
  unfold monthIn
  repeat' split
  all_goals (refine ⟨by omega, by omega, ?_, ?_⟩ <;> (try simp only [Nat.reduceAdd] at *) <;> omega)

/-- The month a day lies in. -/
def monthOf (n : Int) : Nat := monthIn (yearOf n) (n - yearStart (yearOf n))

/-- The day of the month, from 1. -/
def dayOf (n : Int) : Int := n - yearStart (yearOf n) - cum (yearOf n) (monthOf n) + 1

theorem civil_spec (n : Int) :
    1 ≤ monthOf n ∧ monthOf n ≤ 12 ∧ 1 ≤ dayOf n ∧ dayOf n ≤ monthLen (yearOf n) (monthOf n) ∧
      dayNum (yearOf n) (monthOf n) (dayOf n) = n := by
  obtain ⟨s1, s2⟩ := yearOf_spec n
  rw [yearStart_succ] at s2
  have hm := monthIn_spec (yearOf n) (k := n - yearStart (yearOf n)) (by omega) (by rw [cum_year]; omega)
  obtain ⟨a, b, c, d⟩ := hm
  rw [cum_succ _ a b] at d
  refine ⟨a, b, ?_, ?_, ?_⟩
  · unfold dayOf monthOf; omega
  · unfold dayOf monthOf; omega
  · unfold dayNum dayOf; omega

theorem monthLen_pos (y : Int) (m : Nat) : 28 ≤ monthLen y m ∧ monthLen y m ≤ 31 := by
  unfold monthLen
  split <;> (try split) <;> decide

theorem cum_mono (y : Int) {a b : Nat} (h1 : 1 ≤ a) (h2 : a ≤ b) (h3 : b ≤ 13) : cum y a ≤ cum y b := by
  induction b with
  | zero => omega
  | succ b ih =>
    rcases Nat.lt_or_ge b a with h | h
    · have : a = b + 1 := by omega
      subst this; exact Int.le_refl _
    · have := ih h (by omega)
      have := cum_succ y (m := b) (by omega) (by omega)
      have := monthLen_pos y b
      omega

theorem cum_lt (y : Int) {a b : Nat} (h1 : 1 ≤ a) (h2 : a < b) (h3 : b ≤ 13) : cum y a + 28 ≤ cum y b := by
  have := cum_mono y (a := a + 1) (b := b) (by omega) (by omega) h3
  have := cum_succ y (m := a) h1 (by omega)
  have := monthLen_pos y a
  omega

theorem dayNum_civil {y : Int} {m : Nat} {d : Int} (hm1 : 1 ≤ m) (hm2 : m ≤ 12) (hd1 : 1 ≤ d)
    (hd2 : d ≤ monthLen y m) :
    yearOf (dayNum y m d) = y ∧ monthOf (dayNum y m d) = m ∧ dayOf (dayNum y m d) = d := by
  have hc0 : 0 ≤ cum y m := cum_mono y (a := 1) (b := m) (by omega) hm1 (by omega)
  have hc1 := cum_succ y hm1 hm2
  have hc2 := cum_mono y (a := m + 1) (b := 13) (by omega) (by omega) (by omega)
  have hy : yearOf (dayNum y m d) = y := by
    apply yearOf_unique
    · unfold dayNum; omega
    · rw [yearStart_succ]; rw [cum_year] at hc2; unfold dayNum; omega
  have hmo : monthOf (dayNum y m d) = m := by
    obtain ⟨a, b, c, e, f⟩ := civil_spec (dayNum y m d)
    rw [hy] at e f
    generalize monthOf (dayNum y m d) = m' at *
    generalize dayOf (dayNum y m d) = d' at *
    unfold dayNum at f
    rcases Nat.lt_trichotomy m' m with h | h | h
    · have := cum_mono y (a := m' + 1) (b := m) (by omega) (by omega) (by omega)
      have := cum_succ y a b
      omega
    · exact h
    · have := cum_mono y (a := m + 1) (b := m') (by omega) (by omega) (by omega)
      omega
  refine ⟨hy, hmo, ?_⟩
  have := (civil_spec (dayNum y m d)).2.2.2.2
  rw [hy, hmo] at this
  generalize dayOf (dayNum y m d) = d' at *
  unfold dayNum at this; omega

example : (yearOf 719162, monthOf 719162, dayOf 719162) = (1970, 1, 1) := by decide +kernel
/-- 2024-02-29, 19782 days after the epoch. -/
example : (yearOf 738944, monthOf 738944, dayOf 738944) = (2024, 2, 29) := by decide +kernel

/-! ### Months counted on one line -/

/-- Months are counted from January of year 0. -/
def monthStart (k : Int) : Int := dayNum (k / 12) ((k % 12).toNat + 1) 1

theorem monthStart_succ (k : Int) :
    monthStart (k + 1) = monthStart k + monthLen (k / 12) ((k % 12).toNat + 1) := by
  unfold monthStart dayNum
  rcases Int.lt_or_le (k % 12) 11 with h | h
  · rw [show (k + 1) / 12 = k / 12 by omega, show ((k + 1) % 12).toNat + 1 = ((k % 12).toNat + 1) + 1 by omega,
      cum_succ _ (by omega) (by omega)]
    omega
  · rw [show (k + 1) / 12 = k / 12 + 1 by omega, show ((k + 1) % 12).toNat + 1 = 1 by omega,
      show (k % 12).toNat + 1 = 12 by omega, yearStart_succ]
    have := cum_succ (k / 12) (m := 12) (by omega) (by omega)
    rw [cum_year] at this
    have h1 : cum (k / 12 + 1) 1 = 0 := rfl
    rw [h1]
    omega

theorem monthStart_add (k : Int) (n : Nat) : monthStart k + 28 * n ≤ monthStart (k + n) := by
  induction n with
  | zero => simp
  | succ n ih =>
    have := monthStart_succ (k + n)
    have h := monthLen_pos ((k + n) / 12) (((k + n) % 12).toNat + 1)
    rw [show k + ((n + 1 : Nat) : Int) = k + n + 1 by omega]
    omega

theorem monthStart_lt {a b : Int} (h : a < b) : monthStart a < monthStart b := by
  have := monthStart_add a (b - a).toNat
  rw [show a + ((b - a).toNat : Int) = b by omega] at this
  omega

theorem monthStart_le_iff {a b : Int} : monthStart a ≤ monthStart b ↔ a ≤ b := by
  rcases Int.lt_trichotomy a b with h | h | h
  · have := monthStart_lt h; omega
  · subst h; omega
  · have := monthStart_lt h; omega

theorem monthStart_year (y : Int) : monthStart (12 * y) = yearStart y := by
  unfold monthStart dayNum
  rw [show 12 * y / 12 = y by omega, show (12 * y % 12).toNat + 1 = 1 by omega]
  have h1 : cum y 1 = 0 := rfl
  rw [h1]; omega

end OptiPrism.Query
