import Verif.Util

/-!
# Model: the users of the demo store (events-gen/src/generator.rs)

Moments are seconds. What is drawn at random is a parameter; the profile of a user and the bar of progress are left out. Sums of moments are
not bounded.
-/

namespace OptiPrism.Ingest

/-- An hour and a minute of the day, as they are drawn (generator.rs 67-68). -/
structure Draw where
  hour : Fin 24
  minute : Fin 60

/-- generator.rs 16-27. -/
structure Gen where
  cur : Int
  to : Int
  left : Nat
  daily : Nat

/-- `Generator::new` (generator.rs 44-64); `none` is the panic of the `assert!`. -/
def Gen.new (from_ to : Int) (daily : Nat) : Option Gen :=
  if from_ < to then some ⟨from_, to, daily, daily⟩ else none

/-- What a call gives. -/
inductive Sampled where
  | panic
  | done
  | sample (ts : Int) (g : Gen)

/-- `next_sample` (generator.rs 66-93). Without users left to draw, taking one from their number overflows (76): a panic where overflows are
checked. -/
def nextSample (g : Gen) (d : Draw) : Sampled :=
  let ts := g.cur + (d.hour.val : Int) * 3600 + (d.minute.val : Int) * 60
  if g.left = 0 then .panic
  else
    let left := g.left - 1
    if left = 0 then
      if g.cur + 86400 ≥ g.to then .done
      else .sample ts { g with left := g.daily, cur := g.cur + 86400 }
    else .sample ts { g with left := left }

/-- How a run ended: by a panic, by the end of the days, or not while there were draws. -/
inductive Ended where | panic | done | open_
deriving DecidableEq, Repr

/-- The loop over the users (events-gen/src/store/scenario.rs 124): the moments at which they come. -/
def generate : Gen → List Draw → List Int × Ended
  | _, [] => ([], .open_)
  | g, d :: ds =>
    match nextSample g d with
    | .panic => ([], .panic)
    | .done => ([], .done)
    | .sample ts g' => let r := generate g' ds; (ts :: r.1, r.2)

/-- The number of users the command expects (cmd/src/command/store.rs 193): as many a day, for all whole days. -/
def expectedUsers (from_ to : Int) (daily : Nat) : Int := daily * (to - from_).tdiv 86400

end OptiPrism.Ingest
