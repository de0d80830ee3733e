import Verif.Platform.Scalars
import Verif.Platform.RequestLemmas

/-!
# C154: the values of stored queries
-/

namespace OptiPrism.Platform

open OptiPrism.Meta (Str Scalar)

variable {N : Type}

/-- Spec: what is written of a value is read as the value. -/
def KeptAs (v w : FullScalar) : Prop := ∃ r, toRef v = some r ∧ ofRef r = some w

/-- Spec: the kinds of values the stored form was made for: all but dictionaries, two kinds of intervals and what it has no name for. -/
def FullScalar.Plain : FullScalar → Prop
  | .intervalDayTime _ | .intervalMonthDayNano _ | .dictionary _ _ | .other _ => False
  | _ => True

/-- Spec: a time of day in milliseconds. -/
def FullScalar.DayMillis (v : FullScalar) : Prop := ∃ x, v = .time32Millisecond x

/-- The whole claim: what can be written is read as it was. -/
def C154_full : Prop := ∀ v w, KeptAs v w → w = v

/-- Everything but times of day in milliseconds is read as it was written. Missing: these, see `C154_violated`. -/
theorem C154_partial {v w : FullScalar} (hv : ¬ v.DayMillis) (h : KeptAs v w) : w = v := by
  obtain ⟨r, h1, h2⟩ := h
  cases v <;> first | (exact absurd ⟨_, rfl⟩ hv) | (cases h1; done) | (cases h1; cases h2; rfl)

/-- Just the plain values can be written, and what was written can be read. -/
theorem C154_total (v : FullScalar) : (∃ r, toRef v = some r) ↔ v.Plain := by
  cases v <;> first | exact ⟨fun _ => trivial, fun _ => ⟨_, rfl⟩⟩ | exact ⟨fun ⟨_, h⟩ => (by cases h), fun h => False.elim h⟩

theorem C154_readable {v : FullScalar} {r : ScalarRef} (h : toRef v = some r) : ∃ w, ofRef r = some w := by
  cases v <;> first | (cases h; done) | (cases h; exact ⟨_, rfl⟩)

/-- Two values with one stored form differ by the unit of a time of day at most. -/
theorem C154_apart {v w : FullScalar} {r : ScalarRef} (hv : toRef v = some r) (hw : toRef w = some r) (nv : ¬ v.DayMillis) (nw : ¬ w.DayMillis) : v = w := by
  obtain ⟨x, hx⟩ := C154_readable hv
  rw [← C154_partial nv ⟨r, hv, hx⟩, ← C154_partial nw ⟨r, hw, hx⟩]

/-- The values of requests are all kept. -/
theorem C154_requests {E : ReqEnv N} {j : JVal N} {s : Scalar} (h : jsonToScalar E j = some s) (w : FullScalar) : KeptAs (fullScalar s) w ↔ w = fullScalar s := by
  have key : ∃ r, toRef (fullScalar s) = some r ∧ ofRef r = some (fullScalar s) := by
    cases j with
    | num n =>
      simp only [jsonToScalar, Option.map_eq_some_iff] at h
      obtain ⟨_, -, rfl⟩ := h
      exact ⟨_, rfl, rfl⟩
    | bool b => cases h; exact ⟨_, rfl, rfl⟩
    | str b => cases h; exact ⟨_, rfl, rfl⟩
    | _ => cases h
  obtain ⟨r, h1, h2⟩ := key
  constructor
  · rintro ⟨r', h3, h4⟩
    rw [h1] at h3
    cases h3
    rw [h2] at h4
    cases h4
    rfl
  · rintro rfl
    exact ⟨r, h1, h2⟩

/-- Different values of the model are different values. -/
theorem C154_full_scalar {s t : Scalar} (h : fullScalar s = fullScalar t) : s = t := by
  cases s <;> cases t <;> first | (cases h; done) | (cases h; rfl)

/-- A value of a type is a value of the same type. -/
theorem C154_types (s : Scalar) :
    (∀ v, fullScalar s = .bool v ↔ s = .bool v) ∧ (∀ v p q, fullScalar s = .decimal128 v p q ↔ s = .decimal v p q) ∧
    (∀ v, fullScalar s = .int8 v ↔ s = .int8 v) ∧ (∀ v, fullScalar s = .int16 v ↔ s = .int16 v) ∧ (∀ v, fullScalar s = .int32 v ↔ s = .int32 v) ∧
    (∀ v, fullScalar s = .int64 v ↔ s = .int64 v) ∧ (∀ v, fullScalar s = .utf8 v ↔ s = .str v) ∧
    ∀ v tz, fullScalar s = .timestampMillisecond v tz ↔ s = .timestampMs v tz := by
  cases s <;> simp [fullScalar]

/-- A time of day of 1500 milliseconds is read as one of 1500 seconds. -/
theorem C154_violated : ¬ C154_full := fun h => by
  have := h (.time32Millisecond (some 1500#32)) (.time32Second (some 1500#32)) ⟨_, rfl, rfl⟩
  cases this

/-- Stored forms that cannot be read: the process panics where it reads the report. -/
theorem C154_read_violated (r : ScalarRef) : ofRef r = none ↔ (∃ v, r = .intervalDayTime v) ∨ (∃ v, r = .intervalMonthDayNano v) ∨ ∃ k v, r = .dictionary k v := by
  cases r <;> first
    | exact ⟨fun _ => .inl ⟨_, rfl⟩, fun _ => rfl⟩
    | exact ⟨fun _ => .inr (.inl ⟨_, rfl⟩), fun _ => rfl⟩
    | exact ⟨fun _ => .inr (.inr ⟨_, _, rfl⟩), fun _ => rfl⟩
    | exact ⟨fun h => (by cases h), fun h => (by rcases h with ⟨_, h⟩ | ⟨_, h⟩ | ⟨_, _, h⟩ <;> cases h)⟩

/-- As in `C154_partial`: a moment with its zone. -/
example : ¬ (FullScalar.timestampNanosecond (some 7#64) (some "UTC".toList)).DayMillis ∧
    KeptAs (.timestampNanosecond (some 7#64) (some "UTC".toList)) (.timestampNanosecond (some 7#64) (some "UTC".toList)) :=
  ⟨fun ⟨_, h⟩ => (by cases h), _, rfl, rfl⟩

end OptiPrism.Platform
