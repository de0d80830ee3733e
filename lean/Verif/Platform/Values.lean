import Verif.Platform.Records

/-!
# Model: the values of a property

`values` of platform/src/properties.rs 136-156 and query/src/properties.rs 59-81. `QErr.panic` is a panic, refusals are `QErr.plan` or errors
of the store.

Not modelled: the permission (`ExploreReports`), and the JSON the values are written as. The order of values is a parameter, as are the comparisons of
`Sem`; the order in which groups leave the aggregate does not matter, because they are sorted afterwards.
-/

namespace OptiPrism.Platform

open OptiPrism.Meta (Str PropOp PropertyRef EventRef Scalar Kv Property kEvents)
open OptiPrism.Query
open OptiPrism.Ingest (groupCol)

variable {N : Type}

/-- `ListPropertyValuesRequest` with its `Filter`, platform/src/properties.rs 341-355. -/
structure JValues (N : Type) where
  property : JPropertyRef
  event : Option JEventRef
  filter : Option (JOp × Option (List (JVal N)))

/-- `PropertyValues` with its `Filter`, query/src/properties.rs 198-209. -/
structure CValues where
  property : PropertyRef
  event : Option EventRef
  filter : Option (PropOp × Option (List Scalar))

/-- platform/src/properties.rs 417-430. -/
def validateValuesEvent (p : Nat) (kv : Kv) : Option JEventRef → Except QErr Unit
  | none => .ok ()
  | some e => validateEvent p kv e

/-- platform/src/properties.rs 432-441. -/
def validateValuesFilter (p : Nat) (kv : Kv) (r : JPropertyRef) : Option (JOp × Option (List (JVal N))) → Except QErr Unit
  | none => .ok ()
  | some f => validateFilter p kv ⟨r, f.1, f.2⟩

/-- `validate_request`, platform/src/properties.rs 391-443. -/
def validateValues (p : Nat) (kv : Kv) (r : JValues N) : Except QErr Unit := do
  validateProperty p kv r.property
  validateValuesEvent p kv r.event
  validateValuesFilter p kv r.property r.filter

/-- platform/src/properties.rs 370-380. -/
def valuesFilterIn (E : ReqEnv N) (f : JOp × Option (List (JVal N))) : Option (PropOp × Option (List Scalar)) :=
  (keepEmpty (jsonToScalar E) f.2).map fun vs => (opIn f.1, vs)

/-- platform/src/properties.rs 358-368. `none` is a panic. -/
def valuesIn (E : ReqEnv N) (r : JValues N) : Option CValues :=
  (optConv (valuesFilterIn E) r.filter).map fun f => ⟨propIn r.property, r.event.map eventIn, f⟩

/-- What is run: the filter on rows, the column whose values are taken, the table of the dictionary they are decoded with, the filter on
values. -/
structure ValuesPlan where
  cols : List Str
  filter : Expr
  col : Str
  decoded : Option Str
  post : Option Expr

/-- The table of the dictionary in `property_col!`, query/src/properties.rs 97-114, 139-156: it goes by the type of the dictionary. -/
def valuesDict (ref : PropertyRef) (r : Property) : Option Str := match r.dictType with
  | none => none
  | some _ => match ref with
    | .group _ g => some (groupCol g)
    | _ => some kEvents

/-- query/src/properties.rs 164-177: the filter on values, with the dictionary of the table of events. -/
def valuesPost (sys : Str → Str) (p : Nat) (kv : Kv) (r : Property) : Option (PropOp × Option (List Scalar)) → Except QErr (Option Expr)
  | none => .ok none
  | some f => do
    let e ← propExpression sys p kEvents r kv f.1 (f.2.map fun vs => vs.map scalarCell)
    return some e

/-- `values` and `build`, query/src/properties.rs 59-81, 119-195, 211-220: always the table of events. -/
def valuesPlan (sys : Str → Str) (fuel : Nat) (p : Nat) (kv : Kv) (tbl : List Str) (r : CValues) : Except QErr ValuesPlan := do
  let c ← colName sys p kv r.property
  let cols ← scan tbl [kProjectCol, kEventCol, c]
  let f ← valuesFilter (mdOf sys p kv) fuel p r.event
  let prop ← findProp .plan p kv r.property
  let post ← valuesPost sys p kv prop r.filter
  return ⟨cols, f, prop.columnName sys, valuesDict r.property prop, post⟩

/-- From the request to the plan, platform/src/properties.rs 148-153. -/
def valuesRequest (E : ReqEnv N) (sys : Str → Str) (fuel : Nat) (p : Nat) (kv : Kv) (tbl : List Str) (r : JValues N) : Except QErr ValuesPlan := do
  validateValues p kv r
  match valuesIn E r with
  | none => .error .panic
  | some r => valuesPlan sys fuel p kv tbl r

/-- `DictionaryDecodeNode` over the groups. `none` is a panic. -/
def valuesDecode (p : Nat) (kv : Kv) (col : Str) : Option Str → List (Option Cell) → Option (List (Option Cell))
  | none, vs => some vs
  | some t, vs => vs.mapM (decodeCell p kv t col)

/-- The row above the aggregate has one column. -/
def onlyCol (col : Str) (v : Option Cell) : QRow := fun c => if c = col then v else none

/-- The filter on values. -/
def valuesKept (S : Sem) (col : Str) : Option Expr → List (Option Cell) → List (Option Cell)
  | none, vs => vs
  | some e, vs => vs.filter fun v => eval S (onlyCol col v) e == some true

/-- The values of the plan on the rows of the table: filtered, grouped, decoded, filtered again, put in order and cut to 1000
(query/src/properties.rs 135, 94-95, 97-114, 164-192). `none` is a panic. -/
def valuesRun (S : Sem) (p : Nat) (kv : Kv) (order : List (Option Cell) → List (Option Cell)) (c : ValuesPlan) (rows : List QRow) :
    Option (List (Option Cell)) := do
  let vs ← valuesDecode p kv c.col c.decoded ((kept S c.filter rows).map fun row => row c.col).eraseDups
  return (order (valuesKept S c.col c.post vs)).take 1000

end OptiPrism.Platform
