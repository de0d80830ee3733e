import Verif.Platform.Chart

/-!
# Model: from the request for a funnel to its plan

The handler of funnels (platform/src/funnel.rs 44-106) and the planner it calls (query/src/funnel.rs, logical_plan/funnel.rs), up to
the plan: the columns to read, those to decode, the filter of the rows, the conditions of steps and exclusions, the constants and the
columns to group by; and the names of the steps in the answer. `QErr.panic` is a panic.

Not modelled: the context checks (`Access.lean`), the parameters `timestamp` and `format` of the URL. `Duration::milliseconds` is
taken for total (`i64::MIN` panics in newer versions of the library).
-/

namespace OptiPrism.Platform

open OptiPrism.Meta (Str PropOp PropertyRef EventRef Scalar PropFilter Kv Property PropType propsC eventsC)
open OptiPrism.Query
open OptiPrism.Ingest (groupCol)

variable {N : Type}

/-! ## Validation -/

/-- platform/src/funnel.rs 148-170. -/
def validateFEvent (p : Nat) (kv : Kv) (e : JFEvent N) : Except QErr Unit := do
  validateEvent p kv e.event
  each (validateFilter p kv) (e.filters.getD [])

/-- platform/src/funnel.rs 173-188. -/
def orderFits (n : Nat) : JStepOrder → Bool
  | .exact => true
  | .any ps => ps.all fun x => decide (x.1 < n) && decide (x.2 < n)

/-- platform/src/funnel.rs 141-189. -/
def validateStep (p : Nat) (kv : Kv) (n : Nat) (s : JStep N) : Except QErr Unit := do
  require (!s.events.isEmpty)
  each (validateFEvent p kv) s.events
  require (orderFits n s.order)

/-- platform/src/funnel.rs 201-218. -/
def exStepsFit (n : Nat) : Option JExSteps → Bool
  | some (.between f t) => decide (f < n) && decide (t < n)
  | _ => true

/-- platform/src/funnel.rs 191-220: the filters of an exclusion are not looked at. -/
def validateExclude (p : Nat) (kv : Kv) (n : Nat) (e : JExclude N) : Except QErr Unit := do
  validateEvent p kv e.event
  require (exStepsFit n e.steps)

/-- platform/src/funnel.rs 262-274. -/
def fFilterFits : Option JFFilter → Bool
  | some (.timeToConvert f t) => decide (f ≤ t)
  | _ => true

/-- `validate_request`, platform/src/funnel.rs 111-291. That the list of groups is empty is asked inside the loop over it (282). -/
def validateFunnel (p : Nat) (kv : Kv) (r : JFunnel N) : Except QErr Unit := do
  require (decide (r.group < groupsCount))
  require (timeFits r.time)
  require (!r.steps.isEmpty)
  require (decide (r.steps.length ≤ 5))
  each (validateStep p kv r.steps.length) r.steps
  each (validateExclude p kv r.steps.length) (r.exclude.getD [])
  require (decide (r.breakdowns.getD []).Nodup)
  each (validateProperty p kv) (r.breakdowns.getD [])
  require r.segments.isNone
  each (validateProperty p kv) (r.holdingConstants.getD [])
  require (fFilterFits r.filter)
  each (fun g => each (validateFilter p kv) g.filters) (match r.filters with | none => [] | some g => g.groups)

/-! ## The request put right -/

/-- An empty list becomes none. -/
def noEmpty {α : Type} : Option (List α) → Option (List α)
  | some [] => none
  | x => x

/-- `fix_request`, query/src/funnel.rs 551-615: filters of steps and exclusions are left as they are, but for empty lists. -/
def fixFunnel (p : Nat) (kv : Kv) (r : CFunnel) : Except QErr CFunnel := do
  let fs ← fixFilters p kv r.filters
  return { r with
    steps := r.steps.map fun s => { s with events := s.events.map fun e => { e with filters := noEmpty e.filters } }
    exclude := (noEmpty r.exclude).map fun l => l.map fun e => { e with filters := noEmpty e.filters }
    breakdowns := noEmpty r.breakdowns
    holdingConstants := noEmpty r.holdingConstants
    filters := fs }

/-! ## Columns -/

/-- The properties in the order in which `projection` looks at them (query/src/funnel.rs 496-545). -/
def CFunnel.properties (r : CFunnel) : List PropertyRef :=
  (r.steps.flatMap fun s => s.events.flatMap fun e => (e.filters.getD []).map (·.property)) ++ r.holdingConstants.getD [] ++
    ((r.exclude.getD []).flatMap fun e => (e.filters.getD []).map (·.property)) ++ (r.filters.getD []).map (·.property) ++
    r.breakdowns.getD []

/-- `projection`, query/src/funnel.rs 488-549. -/
def funnelProjection (sys : Str → Str) (p : Nat) (kv : Kv) (r : CFunnel) : Except QErr (List Str) := do
  let cs ← collect (colName sys p kv) r.properties
  return [kProjectCol, groupCol r.groupId, kCreatedCol, kEventCol] ++ cs

/-! ## The plan -/

/-- `a * b` of two `i64`: outside the range a panic, or the product modulo 2^64 when overflow checks are off (`wrap`). -/
def mul64 (wrap : Bool) (a b : Int) : Option Int :=
  if -2 ^ 63 ≤ a * b ∧ a * b < 2 ^ 63 then some (a * b) else if wrap then some ((a * b).bmod (2 ^ 64)) else none

/-- `Duration::seconds` (chrono): a number of milliseconds in 64 bit, or a panic. -/
def durationMs (secs : Int) : Option Int :=
  if -(2 ^ 63 - 1) ≤ secs * 1000 ∧ secs * 1000 ≤ 2 ^ 63 - 1 then some (secs * 1000) else none

/-- `TimeIntervalUnitSession::duration`, common/src/funnel.rs 62-71, in milliseconds, of `n as i64` (query/src/funnel.rs 261-262). -/
def windowMs (wrap : Bool) (w : CWindow) : Option Int :=
  let n : Int := (w.n : Int).bmod (2 ^ 64)
  match w.unit with
  | .hour => durationMs (n * 3600)
  | .day => durationMs (n * 86400)
  | .week => durationMs (n * 604800)
  | .month => (mul64 wrap n 31).bind fun d => durationMs (d * 86400)
  | .year => (mul64 wrap n 31).bind fun d => (mul64 wrap d 12).bind fun d => durationMs (d * 86400)
  | .session => none

/-- A panic for none. -/
def orPanic {α : Type} : Option α → Except QErr α
  | some a => .ok a
  | none => .error .panic

structure FunnelPlan where
  cols : List Str
  /-- Columns decoded before the filter, with the table of the dictionary. -/
  decoded : List (Str × Str)
  filter : Expr
  /-- Milliseconds from the first step to the last. -/
  window : Int
  steps : List (Expr × CStepOrder)
  exclude : List (Expr × Option (Nat × Nat))
  constants : List Str
  /-- The columns to group by, with the type of keys they are sorted as, if they are dictionaries. -/
  groups : List (Str × Option Meta.DictType)
  /-- Columns decoded in the result. -/
  decodedAfter : List (Str × Str)
  /-- The names of the steps in the answer. -/
  names : List Str

/-- `decode_filter_dictionaries`, query/src/funnel.rs 428-463: filters of steps and of the request, not those of exclusions. -/
def CFunnel.decodable (r : CFunnel) : List PropFilter :=
  (r.steps.flatMap fun s => s.events.flatMap fun e => e.filters.getD []) ++ r.filters.getD []

/-- query/src/funnel.rs 264-285. -/
def stepPlan (sys : Str → Str) (fuel : Nat) (p : Nat) (kv : Kv) (s : CStep) : Except QErr (Expr × CStepOrder) := do
  let e ← funnelStep (mdOf sys p kv) fuel (s.events.map fun e => ⟨e.event, e.filters⟩)
  return (e, s.order)

/-- query/src/funnel.rs 297-312. -/
def exRange (n : Nat) : Option CExSteps → Option (Nat × Nat)
  | none => none
  | some .all => some (0, n - 1)
  | some (.between f t) => some (f, t)

/-- query/src/funnel.rs 290-316. -/
def excludePlan (sys : Str → Str) (fuel : Nat) (p : Nat) (kv : Kv) (n : Nat) (e : CExclude) : Except QErr (Expr × Option (Nat × Nat)) := do
  let x ← withFilters (mdOf sys p kv) (eventExpression (mdOf sys p kv) fuel e.event) e.filters
  return (x, exRange n e.steps)

/-- `breakdowns_to_dicts!`, query/src/lib.rs 98-137, without leaving out columns seen before. -/
def breakdownDict (sys : Str → Str) (p : Nat) (kv : Kv) (r : PropertyRef) : Except QErr (List (Str × Str)) := do
  let x ← findProp .panic p kv r
  return if x.isDictionary then [(x.columnName sys, dictTable r)] else []

/-- query/src/funnel.rs 338-371, with `Property::data_type` (metadata/src/properties.rs 640-646). -/
def breakdownGroup (sys : Str → Str) (p : Nat) (kv : Kv) (r : PropertyRef) : Except QErr (Str × Option Meta.DictType) := do
  let x ← findProp .plan p kv r
  return (x.columnName sys, x.dictType)

/-- Columns decoded before, or twice, are left out (query/src/lib.rs 119-121 and 132). -/
def newDicts (seen : List Str) : List (Str × Str) → List (Str × Str)
  | [] => []
  | d :: ds => if seen.contains d.1 then newDicts seen ds else d :: newDicts (d.1 :: seen) ds

/-- logical_plan/funnel.rs 53-63 and 112: `field_with_name(..).unwrap()` for each group, and the `unwrap` of the schema of the result, in
which no name may be there twice. -/
def groupSchema (cols groups : List Str) : Except QErr Unit :=
  if (groups.all fun g => cols.contains g) && decide groups.Nodup then .ok () else .error .panic

/-- The name of a step, query/src/funnel.rs 194-198 (by then the rows have been computed). -/
def stepName (p : Nat) (kv : Kv) (s : CStep) : Except QErr Str :=
  match s.events with
  | [] => .error .panic
  | e :: _ => match e.event with
    | .regularName n => .ok n
    | .regular id => do
      let r ← ofStore ((eventsC p).getById id kv)
      return r.name
    | .custom _ => .error .panic

/-- `FunnelProvider::funnel` and `build`, query/src/funnel.rs 78-90, 192-198 and 244-426. -/
def funnelPlan (wrap : Bool) (sys : Str → Str) (fuel : Nat) (p : Nat) (kv : Kv) (tbl : List Str) (cur : Int) (r : CFunnel) :
    Except QErr FunnelPlan := do
  let pr ← funnelProjection sys p kv r
  let cols ← scan tbl pr
  let ds ← collect (decodeFilter sys p kv) r.decodable
  let f ← funnelFilter (mdOf sys p kv) .ms r.time cur r.filters
  let w ← orPanic (windowMs wrap r.timeWindow)
  let st ← collect (stepPlan sys fuel p kv) r.steps
  let ex ← collect (excludePlan sys fuel p kv r.steps.length) (r.exclude.getD [])
  let cs ← collect (colName sys p kv) (r.holdingConstants.getD [])
  let bd ← collect (breakdownDict sys p kv) (r.breakdowns.getD [])
  let gs ← collect (breakdownGroup sys p kv) (r.breakdowns.getD [])
  groupSchema cols (gs.map (·.1))
  let ns ← collect (stepName p kv) r.steps
  return ⟨cols, ds.flatten, f, w, st, ex, cs, gs, newDicts (ds.flatten.map (·.1)) bd.flatten, ns⟩

/-- The handler, platform/src/funnel.rs 44-76. -/
def funnel (E : ReqEnv N) (wrap : Bool) (sys : Str → Str) (fuel : Nat) (p : Nat) (kv : Kv) (tbl : List Str) (cur : Int) (r : JFunnel N) :
    Except QErr FunnelPlan := do
  validateFunnel p kv r
  match funnelIn E r with
  | none => .error .panic
  | some r => do
    let r ← fixFunnel p kv r
    funnelPlan wrap sys fuel p kv tbl cur r

end OptiPrism.Platform
