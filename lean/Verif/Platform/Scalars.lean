import Verif.Platform.Request

/-!
# The stored form of the values of filters

Queries are stored with the reports and bookmarks. The values in them are datafusion's `ScalarValue`, which is stored by way of `ScalarValueRef`
(common/src/scalar.rs; `#[serde_as]` in common/src/query.rs 308, 361, 378, 384). Floating-point numbers are given by their bits.
-/

namespace OptiPrism.Platform

open OptiPrism.Meta (Str Scalar)
open OptiPrism.Storage (Bytes)

/-- datafusion's `ScalarValue`; `other` are the kinds that `ScalarValueRef` does not have (lists, structs, durations, `Decimal256`), `inner` numbers
the types of keys of a dictionary. -/
inductive FullScalar where
  | null
  | bool (v : Option Bool)
  | float32 (v : Option (BitVec 32))
  | float64 (v : Option (BitVec 64))
  | decimal128 (v : Option (BitVec 128)) (precision scale : Nat)
  | int8 (v : Option (BitVec 8))
  | int16 (v : Option (BitVec 16))
  | int32 (v : Option (BitVec 32))
  | int64 (v : Option (BitVec 64))
  | uint8 (v : Option (BitVec 8))
  | uint16 (v : Option (BitVec 16))
  | uint32 (v : Option (BitVec 32))
  | uint64 (v : Option (BitVec 64))
  | utf8 (v : Option Str)
  | largeUtf8 (v : Option Str)
  | binary (v : Option Bytes)
  | largeBinary (v : Option Bytes)
  | date32 (v : Option (BitVec 32))
  | date64 (v : Option (BitVec 64))
  | timestampSecond (v : Option (BitVec 64)) (tz : Option Str)
  | timestampMillisecond (v : Option (BitVec 64)) (tz : Option Str)
  | timestampMicrosecond (v : Option (BitVec 64)) (tz : Option Str)
  | timestampNanosecond (v : Option (BitVec 64)) (tz : Option Str)
  | intervalYearMonth (v : Option (BitVec 32))
  | fixedSizeBinary (n : BitVec 32) (v : Option Bytes)
  | time32Second (v : Option (BitVec 32))
  | time32Millisecond (v : Option (BitVec 32))
  | time64Microsecond (v : Option (BitVec 64))
  | time64Nanosecond (v : Option (BitVec 64))
  | intervalDayTime (v : Option (BitVec 64))
  | intervalMonthDayNano (v : Option (BitVec 128))
  | dictionary (keys : Nat) (v : FullScalar)
  | other (kind : Nat)

/-- `ScalarValueRef`, common/src/scalar.rs 12-46. -/
inductive ScalarRef where
  | null
  | bool (v : Option Bool)
  | float32 (v : Option (BitVec 32))
  | float64 (v : Option (BitVec 64))
  | decimal128 (v : Option (BitVec 128)) (precision scale : Nat)
  | int8 (v : Option (BitVec 8))
  | int16 (v : Option (BitVec 16))
  | int32 (v : Option (BitVec 32))
  | int64 (v : Option (BitVec 64))
  | uint8 (v : Option (BitVec 8))
  | uint16 (v : Option (BitVec 16))
  | uint32 (v : Option (BitVec 32))
  | uint64 (v : Option (BitVec 64))
  | utf8 (v : Option Str)
  | largeUtf8 (v : Option Str)
  | binary (v : Option Bytes)
  | largeBinary (v : Option Bytes)
  | date32 (v : Option (BitVec 32))
  | date64 (v : Option (BitVec 64))
  | timestampSecond (v : Option (BitVec 64)) (tz : Option Str)
  | timestampMillisecond (v : Option (BitVec 64)) (tz : Option Str)
  | timestampMicrosecond (v : Option (BitVec 64)) (tz : Option Str)
  | timestampNanosecond (v : Option (BitVec 64)) (tz : Option Str)
  | intervalYearMonth (v : Option (BitVec 32))
  | fixedSizeBinary (n : BitVec 32) (v : Option Bytes)
  | time32Second (v : Option (BitVec 32))
  | time32Millisecond (v : Option (BitVec 32))
  | time64Microsecond (v : Option (BitVec 64))
  | time64Nanosecond (v : Option (BitVec 64))
  | intervalDayTime (v : Option (BitVec 64))
  | intervalMonthDayNano (v : Option (BitVec 128))
  | dictionary (keys : Nat) (v : ScalarRef)

/-- `From<&ScalarValue> for ScalarValueRef`, common/src/scalar.rs 85-120: what is written. `none`: `unimplemented!()`. -/
def toRef : FullScalar → Option ScalarRef
  | .null => some .null
  | .bool v => some (.bool v)
  | .float32 v => some (.float32 v)
  | .float64 v => some (.float64 v)
  | .decimal128 v precision scale => some (.decimal128 v precision scale)
  | .int8 v => some (.int8 v)
  | .int16 v => some (.int16 v)
  | .int32 v => some (.int32 v)
  | .int64 v => some (.int64 v)
  | .uint8 v => some (.uint8 v)
  | .uint16 v => some (.uint16 v)
  | .uint32 v => some (.uint32 v)
  | .uint64 v => some (.uint64 v)
  | .utf8 v => some (.utf8 v)
  | .largeUtf8 v => some (.largeUtf8 v)
  | .binary v => some (.binary v)
  | .largeBinary v => some (.largeBinary v)
  | .date32 v => some (.date32 v)
  | .date64 v => some (.date64 v)
  | .timestampSecond v tz => some (.timestampSecond v tz)
  | .timestampMillisecond v tz => some (.timestampMillisecond v tz)
  | .timestampMicrosecond v tz => some (.timestampMicrosecond v tz)
  | .timestampNanosecond v tz => some (.timestampNanosecond v tz)
  | .intervalYearMonth v => some (.intervalYearMonth v)
  | .fixedSizeBinary n v => some (.fixedSizeBinary n v)
  | .time32Second v => some (.time32Second v)
  | .time32Millisecond v => some (.time32Second v)
  | .time64Microsecond v => some (.time64Microsecond v)
  | .time64Nanosecond v => some (.time64Nanosecond v)
  | _ => none

/-- `From<ScalarValueRef> for ScalarValue`, common/src/scalar.rs 48-83: what is read. `none`: `unimplemented!()`. -/
def ofRef : ScalarRef → Option FullScalar
  | .null => some .null
  | .bool v => some (.bool v)
  | .float32 v => some (.float32 v)
  | .float64 v => some (.float64 v)
  | .decimal128 v precision scale => some (.decimal128 v precision scale)
  | .int8 v => some (.int8 v)
  | .int16 v => some (.int16 v)
  | .int32 v => some (.int32 v)
  | .int64 v => some (.int64 v)
  | .uint8 v => some (.uint8 v)
  | .uint16 v => some (.uint16 v)
  | .uint32 v => some (.uint32 v)
  | .uint64 v => some (.uint64 v)
  | .utf8 v => some (.utf8 v)
  | .largeUtf8 v => some (.largeUtf8 v)
  | .binary v => some (.binary v)
  | .largeBinary v => some (.largeBinary v)
  | .date32 v => some (.date32 v)
  | .date64 v => some (.date64 v)
  | .timestampSecond v tz => some (.timestampSecond v tz)
  | .timestampMillisecond v tz => some (.timestampMillisecond v tz)
  | .timestampMicrosecond v tz => some (.timestampMicrosecond v tz)
  | .timestampNanosecond v tz => some (.timestampNanosecond v tz)
  | .intervalYearMonth v => some (.intervalYearMonth v)
  | .fixedSizeBinary n v => some (.fixedSizeBinary n v)
  | .time32Second v => some (.time32Second v)
  | .time32Millisecond v => some (.time32Second v)
  | .time64Microsecond v => some (.time64Microsecond v)
  | .time64Nanosecond v => some (.time64Nanosecond v)
  | _ => none

/-- The values of the model of requests and stored queries among all values. -/
def fullScalar : Scalar → FullScalar
  | .bool v => .bool v
  | .decimal v p s => .decimal128 v p s
  | .int8 v => .int8 v
  | .int16 v => .int16 v
  | .int32 v => .int32 v
  | .int64 v => .int64 v
  | .str v => .utf8 v
  | .timestampMs v tz => .timestampMillisecond v tz
  | .other => .other 0

end OptiPrism.Platform
