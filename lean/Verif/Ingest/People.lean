import Verif.Util

/-!
# Model: the people of the demo store (events-gen/src/store/profiles.rs, store/companies.rs)

Places and devices are drawn by their weights with `WeightedIndex` of the crate `rand` (0.8), which is modelled; what the generator of random numbers gives is
a parameter. A row of a file is what `csv` makes of it, or its error. Texts are numbers.
-/

namespace OptiPrism.Ingest

/-- The errors of `WeightedIndex::new`; `overflow` is a sum beyond an `i32`. -/
inductive WeightErr | noItem | negative | allZero | overflow
deriving DecidableEq, Repr

/-- `WeightedIndex<i32>`: the sums of the weights before every item but the first, and of all. -/
structure WeightIdx where
  sums : List Nat
  total : Nat
deriving DecidableEq, Repr

/-- The loop of `WeightedIndex::new`: `t` is the sum so far. -/
def weighGo : Nat → List Int → Except WeightErr WeightIdx
  | t, [] => .ok ⟨[], t⟩
  | t, w :: ws =>
    if w < 0 then .error .negative
    else if 2 ^ 31 ≤ t + w.toNat then .error .overflow
    else match weighGo (t + w.toNat) ws with
      | .error e => .error e
      | .ok d => .ok ⟨t :: d.sums, d.total⟩

/-- `WeightedIndex::new`. -/
def weightsNew : List Int → Except WeightErr WeightIdx
  | [] => .error .noItem
  | w :: ws =>
    if w < 0 then .error .negative
    else match weighGo w.toNat ws with
      | .error e => .error e
      | .ok d => if d.total = 0 then .error .allZero else .ok d

/-- `WeightedIndex::sample`: `x` is drawn below the sum of all; the first item whose sum is higher. -/
def WeightIdx.pick (d : WeightIdx) (x : Nat) : Nat := (d.sums.takeWhile fun s => decide (s ≤ x)).length

/-- A row of the file of places, store/profiles.rs 27-33. -/
structure PlaceRow where
  country : Option Nat
  city : Option Nat
  weight : Int
deriving DecidableEq, Repr

/-- `Geo`, store/profiles.rs 21-25. -/
structure PersonPlace where
  country : Option Nat
  city : Option Nat
deriving DecidableEq, Repr

/-- A row of the file of devices, store/profiles.rs 43-51. -/
structure GadgetRow where
  device : Option Nat
  category : Option Nat
  os : Option Nat
  osVersion : Option Nat
  weight : Int
deriving DecidableEq, Repr

/-- `Device`, store/profiles.rs 35-41. -/
structure PersonGadget where
  device : Option Nat
  category : Option Nat
  os : Option Nat
  osVersion : Option Nat
deriving DecidableEq, Repr

/-- `Company`, store/companies.rs 9-23. -/
structure Firm where
  name : Nat
  staff : Nat
  age : Nat
deriving DecidableEq, Repr

/-- What ends the reading of the files. -/
inductive PeopleErr | csv | weights (e : WeightErr)
deriving DecidableEq, Repr

/-- All rows, or the error of the first that cannot be read. -/
def csvRows : List (Option α) → Except PeopleErr (List α)
  | [] => .ok []
  | none :: _ => .error .csv
  | some r :: rs => match csvRows rs with
    | .error e => .error e
    | .ok l => .ok (r :: l)

/-- `WeightedIndex::new(..).map_err(..)`, store/profiles.rs 126-130. -/
def weightsOf (ws : List Int) : Except PeopleErr WeightIdx := match weightsNew ws with
  | .error e => .error (.weights e)
  | .ok d => .ok d

/-- `ProfileProvider`, store/profiles.rs 66-72, with the companies of its `CompanyProvider`. -/
structure People where
  places : List PersonPlace
  placeIdx : WeightIdx
  gadgets : List PersonGadget
  gadgetIdx : WeightIdx
  firms : List Firm

/-- `CompanyProvider::try_new_from_csv`, store/companies.rs 30-47. -/
def firmsNew (shuffle : List Firm → List Firm) (rows : List (Option Firm)) : Except PeopleErr (List Firm) := match csvRows rows with
  | .error e => .error e
  | .ok l => .ok (shuffle l)

/-- `ProfileProvider::try_new_from_csv`, store/profiles.rs 75-133. -/
def peopleNew (places : List (Option PlaceRow)) (gadgets : List (Option GadgetRow)) (firms : List Firm) : Except PeopleErr People := do
  let ps ← csvRows places
  let gs ← csvRows gadgets
  let pi ← weightsOf (ps.map (·.weight))
  let gi ← weightsOf (gs.map (·.weight))
  return { places := ps.map fun r => ⟨r.country, r.city⟩, placeIdx := pi,
           gadgets := gs.map fun r => ⟨r.device, r.category, r.os, r.osVersion⟩, gadgetIdx := gi, firms := firms }

/-- What is drawn for a person. -/
structure PersonDraw where
  place : Nat
  gadget : Nat
  age : Nat
  firm : Nat
  project : Nat

/-- `Profile`, store/profiles.rs 53-64, without the names, the address and the identifiers, which are made up. -/
structure Person where
  place : PersonPlace
  gadget : PersonGadget
  age : Nat
  firm : Firm
  project : Nat
deriving DecidableEq, Repr

/-- `sample`, store/profiles.rs 135-148, and store/companies.rs 49-51: numbers are drawn below a bound, here by taking the remainder. `none` is a panic. -/
def People.sample (p : People) (d : PersonDraw) : Option Person := do
  let place ← p.places[p.placeIdx.pick (d.place % p.placeIdx.total)]?
  let gadget ← p.gadgets[p.gadgetIdx.pick (d.gadget % p.gadgetIdx.total)]?
  let firm ← p.firms[d.firm % p.firms.length]?
  return { place := place, gadget := gadget, age := 18 + d.age % 32, firm := firm, project := 1 + d.project % 10 }

end OptiPrism.Ingest
