import Verif.Platform.Records

/-!
# Model: one record by its number or name

`get_by_id` of query/src/event_records.rs and query/src/group_records.rs, called by platform/src/event_records.rs 39-54 and
platform/src/group_records.rs 39-61 without validation. `QErr.panic` is a panic, refusals are `QErr.plan` or errors of the store.

Not modelled: the JSON the values are written as; columns of lists are taken to be those of array properties.
-/

namespace OptiPrism.Platform

open OptiPrism.Meta (Str PropertyRef Kv Property PropType propsC kEvents dictGetKey)
open OptiPrism.Query
open OptiPrism.Ingest (groupCol)

/-- The first property with the column, query/src/event_records.rs 103-108. -/
def firstWith (sys : Str → Str) (c : Str) (l : List Property) : Option Property := l.find? fun r => r.columnName sys = c

/-- query/src/event_records.rs 102-119: properties of events first; of those of groups the last group with one, as `break` only leaves the
inner loop. -/
def eventLabel (sys : Str → Str) (es : List Property) (gs : List (List Property)) (c : Str) : Option Property :=
  match firstWith sys c es with
  | some r => some r
  | none => gs.foldl (fun found l => match firstWith sys c l with
    | some r => some r
    | none => found) none

/-- query/src/event_records.rs 121-165, group_records.rs 103-158: each column of the table that has a property, with the value of the first
row. `a.value(0)` panics without rows, and does not look whether the value is missing: `junk` is what the buffer holds then. Lists are
`unimplemented!`. `none` is a panic. -/
def recordValues (junk : Str → Cell) (label : Str → Option Property) (tbl : List Str) (rows : List QRow) : Option (List (PropertyRef × Option Cell)) :=
  (tbl.filterMap fun c => (label c).map fun r => (c, r)).mapM fun x =>
    if x.2.isArray then none else rows.head?.map fun row => (reference x.2, some ((row x.1).getD (junk x.1)))

/-- What the query gives, query/src/event_records.rs 440-491: filtered, then decoded. -/
def recordRows (S : Sem) (p : Nat) (kv : Kv) (f : Expr) (ds : List (Str × Str)) (rows : List QRow) : Option (List QRow) :=
  decodeRows p kv ds (kept S f rows)

/-- `none` is a panic. -/
def orCrash {α : Type} : Option α → Except QErr α
  | none => .error .panic
  | some a => .ok a

/-- `get_by_id`, query/src/event_records.rs 83-170 and 421-492. `tbl` are the columns of the table of events, `rows` its rows. -/
def eventRecord (S : Sem) (junk : Str → Cell) (sys : Str → Str) (p : Nat) (kv : Kv) (tbl : List Str) (rows : List QRow) (id : Nat) :
    Except QErr (List (PropertyRef × Option Cell)) := do
  let f ← eventByIdFilter p id
  let es ← ofStore ((propsC p .event).list kv)
  let gs ← collect (fun g => ofStore ((propsC p (.group g)).list kv)) (List.range groupsCount)
  let out ← orCrash (recordRows S p kv f (decodedAfter sys eventTable [] tbl (es ++ gs.flatten)) rows)
  orCrash (recordValues junk (eventLabel sys es gs) tbl out)

/-- `get_by_id`, query/src/group_records.rs 79-163 and 365-435. `tbl` are the columns of the table of the group, if there is one, `rows`
its rows. -/
def groupRecord (S : Sem) (junk : Str → Cell) (sys : Str → Str) (p : Nat) (kv : Kv) (tbl : Option (List Str)) (rows : List QRow) (g : Nat) (id : Str) :
    Except QErr (List (PropertyRef × Option Cell)) := do
  let tbl ← groupTable tbl
  let idProp ← findProp .plan p kv (.group kIdCol g)
  let key ← ofStore (dictGetKey p (groupCol g) (idProp.columnName sys) id kv)
  let f ← groupByIdFilter p key
  let ps ← ofStore ((propsC p (.group g)).list kv)
  let out ← orCrash (recordRows S p kv f (decodedAfter sys (fun _ => groupCol g) [] tbl ps) rows)
  orCrash (recordValues junk (fun c => firstWith sys c ps) tbl out)

end OptiPrism.Platform
