import Verif.Ingest.Model

/-!
# The transformers

Model of /repo/src/ingester/src/transformers: the user agent (user_agent/mod.rs 19-191, track.rs 26-42) and the
location (geo/mod.rs 16-54, track.rs 30-54) of a track request, in the order in which they run
(/repo/src/cmd/src/lib.rs 320-331).

Not modelled: the `uaparser` parser and the `maxminddb` reader; they are parameters.
-/

namespace OptiPrism.Ingest

open OptiPrism.Meta

/-! The names of the properties, /repo/src/common/src/types.rs 46-60. -/
@[irreducible] def kClientFamily : Str := "Client Family".toList
@[irreducible] def kClientMajor : Str := "Client Version Major".toList
@[irreducible] def kClientMinor : Str := "Client Version Minor".toList
@[irreducible] def kDeviceFamily : Str := "Device Family".toList
@[irreducible] def kDeviceBrand : Str := "Device Brand".toList
@[irreducible] def kDeviceModel : Str := "Device Model".toList
@[irreducible] def kOs : Str := "OS".toList
@[irreducible] def kOsFamily : Str := "OS Family".toList
@[irreducible] def kOsMajor : Str := "OS Version Major".toList
@[irreducible] def kOsMinor : Str := "OS Version Minor".toList
@[irreducible] def kOsPatch : Str := "OS Version Patch".toList
@[irreducible] def kOsPatchMinor : Str := "OS Version Patch Minor".toList
@[irreducible] def kCountry : Str := "Country".toList
@[irreducible] def kCity : Str := "City".toList

/-- What the parser finds in a user agent: the fields of `uaparser::Client` that are read, user_agent/mod.rs 27-188. -/
structure Agent where
  family : Str
  major : Option Str := none
  minor : Option Str := none
  device : Str
  brand : Option Str := none
  model : Option Str := none
  os : Str
  osMajor : Option Str := none
  osMinor : Option Str := none
  osPatch : Option Str := none
  osPatchMinor : Option Str := none
  deriving DecidableEq, Repr

/-- The text stored as the family of the system, user_agent/mod.rs 117-134. -/
def Agent.osText (a : Agent) : Str :=
  match a.osMajor, a.osMinor, a.osPatch, a.osPatchMinor with
  | none, _, _, _ => a.os
  | some x, none, _, _ => a.os ++ ' ' :: x
  | some x, some y, none, _ => a.os ++ ' ' :: (x ++ '.' :: y)
  | some x, some y, some z, none => a.os ++ ' ' :: (x ++ '.' :: (y ++ '.' :: z))
  | some x, some y, some z, some u => a.os ++ ' ' :: (x ++ '.' :: (y ++ '.' :: (z ++ '.' :: u)))

/-- The properties of a user agent, in order, user_agent/mod.rs 31-188. -/
def Agent.pairs (a : Agent) : List (Str × Str) :=
  (kClientFamily, a.family) :: ((a.major.map fun v => (kClientMajor, v)).toList ++ ((a.minor.map fun v => (kClientMinor, v)).toList ++
    ((kDeviceFamily, a.device) :: ((a.brand.map fun v => (kDeviceBrand, v)).toList ++ ((a.model.map fun v => (kDeviceModel, v)).toList ++
      ((kOs, a.os) :: (kOsFamily, a.osText) :: ((a.osMajor.map fun v => (kOsMajor, v)).toList ++ ((a.osMinor.map fun v => (kOsMinor, v)).toList ++
        ((a.osPatch.map fun v => (kOsPatch, v)).toList ++ (a.osPatchMinor.map fun v => (kOsPatchMinor, v)).toList)))))))))

/-- A place in the database: the English names of the country and of the city. -/
structure Place where
  country : Option Str := none
  city : Option Str := none
  deriving DecidableEq, Repr

/-- geo/mod.rs 26-51. -/
def Place.pairs (x : Place) : List (Str × Str) :=
  (x.country.map fun v => (kCountry, v)).toList ++ (x.city.map fun v => (kCity, v)).toList

/-- What `maxminddb::Reader::lookup` gives. -/
inductive Lookup where
  | found (x : Place) | notFound | failed
  deriving DecidableEq, Repr

/-- The user-agent parser and the database of addresses. -/
structure Detect where
  parse : Str → Agent
  lookup : Str → Lookup

/-- Each property is looked up by its name and appended with its value. -/
def addFound (kv : Kv) (p : Nat) : List (Str × Str) → List (Property × PropValue) → Except Fail (List (Property × PropValue))
  | [], l => .ok l
  | x :: r, l =>
    match (propsC p .event).getBy .name x.1 kv with
    | .error e => .error (.metadata e)
    | .ok q => addFound kv p r (l ++ [(q, .string x.2)])

/-- user_agent/track.rs 26-42. -/
def userAgent (D : Detect) (kv : Kv) (p : Nat) (req : Track) (l : List (Property × PropValue)) : Except Fail (List (Property × PropValue)) :=
  match req.agent with
  | none => .ok l
  | some s => addFound kv p (D.parse s).pairs l

/-- geo/track.rs 30-54: an address that is not in the database changes nothing, every other error is returned. -/
def geo (D : Detect) (kv : Kv) (p : Nat) (req : Track) (l : List (Property × PropValue)) : Except Fail (List (Property × PropValue)) :=
  match D.lookup req.ip with
  | .notFound => .ok l
  | .failed => .error .internal
  | .found x => addFound kv p x.pairs l

/-- Both, cmd/src/lib.rs 320-331, executor.rs 254-256. -/
def detectEnv (D : Detect) (sys : Str → Str) (now : Time) : Env Track :=
  { sys := sys, now := now, transform := fun kv p req l => match userAgent D kv p req l with | .error e => .error e | .ok l => geo D kv p req l }

end OptiPrism.Ingest
