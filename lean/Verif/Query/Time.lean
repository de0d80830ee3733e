import Verif.Query.Calendar

/-!
# Model: query time (`common/src/query.rs`)

`DateTime<Utc>` is an `Int` of nanoseconds since the epoch. `chrono::Duration` is an `Int` of
nanoseconds. `chronoutil` (0.2.3) is not part of /repo; `RelativeDuration`, `shift_months` and
`DateRule` are transcribed from its documentation: shifting by months keeps the time of day and the
day of the month, cut to the length of the target month; a `DateRule` yields `start + k*step` for
`k = 0, 1, ..` while before `end` (exclusive). Moments outside the range of `chrono` panic in the
code and are not distinguished here.
-/

namespace OptiPrism.Query

def nsSec : Int := 1000000000
def nsMin : Int := 60 * 1000000000
def nsHour : Int := 3600 * 1000000000
def nsDay : Int := 86400 * 1000000000
def nsMs : Int := 1000000

/-- The calendar day of a moment. -/
def dayAt (t : Int) : Int := t / nsDay + 719162

/-- Midnight starting a day. -/
def midnight (n : Int) : Int := (n - 719162) * nsDay

/-- `TimeIntervalUnit` (common/src/query.rs:424-431). -/
inductive Unit' where
  | hour | day | week | month | year
deriving DecidableEq, Repr

/-! ### `chrono` field setters, with the value 0 -/

def withNanosecond0 (t : Int) : Int := t - t % nsSec
def withSecond0 (t : Int) : Int := t - (t / nsSec % 60) * nsSec
def withMinute0 (t : Int) : Int := t - (t / nsMin % 60) * nsMin
def withHour0 (t : Int) : Int := t - (t / nsHour % 24) * nsHour
/-- `with_day0(0)`: the first of the month, same time of day. -/
def withDay00 (t : Int) : Int := midnight (dayNum (yearOf (dayAt t)) (monthOf (dayAt t)) 1) + t % nsDay
/-- `with_month0(0)`: the same day of January, same time of day. -/
def withMonth00 (t : Int) : Int := midnight (dayNum (yearOf (dayAt t)) 1 (dayOf (dayAt t))) + t % nsDay

/-- `d.weekday() as i64`: Monday is 0 (0001-01-01 was a Monday). -/
def weekday (t : Int) : Int := dayAt t % 7

/-- `date_trunc` (common/src/query.rs:484-518). -/
def dateTrunc (u : Unit') (t : Int) : Int :=
  match u with
  | .hour => withMinute0 (withSecond0 (withNanosecond0 t))
  | .day => withHour0 (withMinute0 (withSecond0 (withNanosecond0 t)))
  | .week =>
    let d := withHour0 (withMinute0 (withSecond0 (withNanosecond0 t)))
    d - 60 * 60 * 24 * weekday d * nsSec
  | .month => withDay00 (withHour0 (withMinute0 (withSecond0 (withNanosecond0 t))))
  | .year => withMonth00 (withDay00 (withHour0 (withMinute0 (withSecond0 (withNanosecond0 t)))))

/-- `TimeIntervalUnit::duration` (common/src/query.rs:434-442). -/
def unitDuration (u : Unit') (n : Int) : Int :=
  match u with
  | .hour => n * nsHour
  | .day => n * nsDay
  | .week => n * (7 * nsDay)
  | .month => n * 31 * nsDay
  | .year => n * 31 * 12 * nsDay

/-- `chronoutil::RelativeDuration`: months and a duration. -/
structure RelDur where
  months : Int
  duration : Int
deriving DecidableEq, Repr

/-- `n as i32`. -/
def asI32 (n : Int) : Int := (n + 2147483648) % 4294967296 - 2147483648

/-- `TimeIntervalUnit::relative_duration` (common/src/query.rs:443-451). `none`: `years` multiplies
by 12 with a checked multiplication. -/
def relativeDuration (u : Unit') (n : Int) : Option RelDur :=
  match u with
  | .hour => some ⟨0, n * nsHour⟩
  | .day => some ⟨0, n * nsDay⟩
  | .week => some ⟨0, n * (7 * nsDay)⟩
  | .month => some ⟨asI32 n, 0⟩
  | .year =>
    let m := asI32 n * 12
    if -2147483648 ≤ m ∧ m < 2147483648 then some ⟨m, 0⟩ else none

/-- `chronoutil::delta::shift_months`: `year + (month + shift) / 12` with truncating division,
corrected when the month falls below 1; the day is cut to the length of the month. -/
def shiftMonths (t months : Int) : Int :=
  let n := dayAt t
  let s := (monthOf n : Int) + months
  let year := yearOf n + s.tdiv 12
  let month := s.tmod 12
  let ym : Int × Int := if month < 1 then (year - 1, month + 12) else (year, month)
  let day := min (dayOf n) (monthLen ym.1 ym.2.toNat)
  midnight (dayNum ym.1 ym.2.toNat day) + t % nsDay

/-- `DateTime + RelativeDuration`. -/
def addRel (t : Int) (r : RelDur) : Int := shiftMonths t r.months + r.duration

/-- `DateTime - RelativeDuration`, which adds the negated one. -/
def subRel (t : Int) (r : RelDur) : Int := addRel t ⟨-r.months, -r.duration⟩

/-- `QueryTime` (common/src/query.rs:400-412). -/
inductive QueryTime where
  | between (from_ to : Int)
  | from_ (from_ : Int)
  | last (n : Int) (u : Unit')
deriving DecidableEq, Repr

/-- `QueryTime::range` (common/src/query.rs:414-422). -/
def QueryTime.range (q : QueryTime) (cur : Int) : Option (Int × Int) :=
  match q with
  | .between f t => some (f, t)
  | .from_ f => some (f, cur)
  | .last n u => (relativeDuration u n).map fun r => (subRel cur r, cur)

/-- The `k`-th moment of a `DateRule` of the given step: `start + step * k`. -/
def ruleAt (u : Unit') (start : Int) (k : Nat) : Int :=
  match u with
  | .hour => start + k * nsHour
  | .day => start + k * nsDay
  | .week => start + k * (7 * nsDay)
  | .month => shiftMonths start k
  | .year => shiftMonths start (12 * k)

/-- A `DateRule` with an end: the moments before `stop`. Steps are at least an hour, so that the
number of hours bounds the number of steps. -/
def ruleList (u : Unit') (start stop : Int) : List Int :=
  ((List.range ((stop - start) / nsHour + 1).toNat).map (ruleAt u start)).takeWhile (· < stop)

/-- `granularity.relative_duration(1)`. -/
def plusOne (u : Unit') (t : Int) : Int :=
  match u with
  | .hour => addRel t ⟨0, nsHour⟩
  | .day => addRel t ⟨0, nsDay⟩
  | .week => addRel t ⟨0, 7 * nsDay⟩
  | .month => addRel t ⟨1, 0⟩
  | .year => addRel t ⟨12, 0⟩

theorem plusOne_eq (u : Unit') (t : Int) : (relativeDuration u 1).map (addRel t) = some (plusOne u t) := by
  cases u <;> simp [relativeDuration, plusOne, asI32]

/-- `time_columns` (common/src/query.rs:464-482), as moments: the code formats each moment as
`%Y-%m-%dT%H:%M:%S` in the end. -/
def timeColumns (from_ to : Int) (u : Unit') : List Int :=
  let f := dateTrunc u from_
  let t := dateTrunc u to
  ruleList u f (plusOne u t)

/-- `timestamp_millis()`. -/
def millis (t : Int) : Int := t / nsMs

/-- The bucket starts of a funnel in milliseconds
(query/src/physical_plan/expressions/aggregate/partitioned/funnel/funnel.rs:308-328):
`(from..=to).step_by(duration(1))`, with one bucket if that is empty. -/
def funnelBuckets (u : Option Unit') (from_ to : Int) : List Int :=
  match u with
  | some u =>
    let f := millis (dateTrunc u from_)
    let t := millis (dateTrunc u to)
    let d := millis (unitDuration u 1)
    let bs := (List.range ((t - f) / d + 1).toNat).map fun (k : Nat) => f + (k : Int) * d
    if bs.isEmpty then [f] else bs
  | none => [millis from_]

end OptiPrism.Query
