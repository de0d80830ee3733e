import Verif.Meta.Records2

/-!
# Model: the types of columns in the notations of the store, of arrow2 and of arrow

`field2_to_field1` (storage/src/arrow_conversion.rs) and the conversions of `DType` (common/src/types.rs). `none` is a panic or an error.
Left out: the metadata of a field, which arrow2 carries and the conversion drops; the children of unions, maps, dictionaries and extensions.
-/

namespace OptiPrism.Storage

open OptiPrism.Meta (Str DType)

/-- The four units of time of both libraries. -/
inductive ArrowUnit where | second | millisecond | microsecond | nanosecond
deriving DecidableEq, Repr

/-- The three units of intervals of both libraries. -/
inductive ArrowInterval where | yearMonth | dayTime | monthDayNano
deriving DecidableEq, Repr

/-- Types without parameters that both libraries have under the same name. -/
inductive PlainType where
  | null | boolean | int8 | int16 | int32 | int64 | uint8 | uint16 | uint32 | uint64 | float16 | float32 | float64
  | date32 | date64 | binary | largeBinary | utf8 | largeUtf8
deriving DecidableEq, Repr

mutual
/-- `arrow2::datatypes::DataType`; sizes and precisions are `usize`. -/
inductive Type2 where
  | plain (t : PlainType)
  | timestamp (u : ArrowUnit) (tz : Option Str)
  | time32 (u : ArrowUnit)
  | time64 (u : ArrowUnit)
  | duration (u : ArrowUnit)
  | interval (u : ArrowInterval)
  | fixedSizeBinary (n : Nat)
  | list (f : Field2)
  | fixedSizeList (f : Field2) (n : Nat)
  | largeList (f : Field2)
  | struct (fs : Fields2)
  | union | map | dictionary | extension
  | decimal (p s : Nat)
  | decimal256 (p s : Nat)
/-- `arrow2::datatypes::Field`. -/
inductive Field2 where
  | mk (name : Str) (t : Type2) (nullable : Bool)
/-- `Schema::fields`. -/
inductive Fields2 where
  | nil
  | cons (f : Field2) (fs : Fields2)
end

mutual
/-- `arrow_schema::DataType`; sizes are `i32`, precisions `u8`, scales `i8`. -/
inductive Type1 where
  | plain (t : PlainType)
  | timestamp (u : ArrowUnit) (tz : Option Str)
  | time32 (u : ArrowUnit)
  | time64 (u : ArrowUnit)
  | duration (u : ArrowUnit)
  | interval (u : ArrowInterval)
  | fixedSizeBinary (n : BitVec 32)
  | list (f : Field1)
  | fixedSizeList (f : Field1) (n : BitVec 32)
  | largeList (f : Field1)
  | struct (fs : Fields1)
  | decimal128 (p s : BitVec 8)
  | decimal256 (p s : BitVec 8)
/-- `arrow_schema::Field`. -/
inductive Field1 where
  | mk (name : Str) (t : Type1) (nullable : Bool)
/-- The fields of a schema. -/
inductive Fields1 where
  | nil
  | cons (f : Field1) (fs : Fields1)
end

/-- arrow_conversion.rs 34-41. -/
def timeUnit1 : ArrowUnit → ArrowUnit
  | .second => .second
  | .millisecond => .millisecond
  | .microsecond => .microsecond
  | .nanosecond => .nanosecond

/-- arrow_conversion.rs 43-49. -/
def intervalUnit1 : ArrowInterval → ArrowInterval
  | .yearMonth => .yearMonth
  | .dayTime => .dayTime
  | .monthDayNano => .monthDayNano

/-- arrow_conversion.rs 63-75, 79-80, 87 and 89-91. -/
def plain1 : PlainType → PlainType
  | .null => .null
  | .boolean => .boolean
  | .int8 => .int8
  | .int16 => .int16
  | .int32 => .int32
  | .int64 => .int64
  | .uint8 => .uint8
  | .uint16 => .uint16
  | .uint32 => .uint32
  | .uint64 => .uint64
  | .float16 => .float16
  | .float32 => .float32
  | .float64 => .float64
  | .date32 => .date32
  | .date64 => .date64
  | .binary => .binary
  | .largeBinary => .largeBinary
  | .utf8 => .utf8
  | .largeUtf8 => .largeUtf8

mutual
/-- The type in `field2_to_field1`, arrow_conversion.rs 62-106. -/
def type1 : Type2 → Option Type1
  | .plain t => some (.plain (plain1 t))
  | .timestamp u tz => some (.timestamp (timeUnit1 u) tz)
  | .time32 u => some (.time32 (timeUnit1 u))
  | .time64 u => some (.time64 (timeUnit1 u))
  | .duration u => some (.duration (timeUnit1 u))
  | .interval u => some (.interval (intervalUnit1 u))
  | .fixedSizeBinary n => some (.fixedSizeBinary (BitVec.ofNat 32 n))
  | .list f => (field1 f).map .list
  | .fixedSizeList f n => (field1 f).map fun g => .fixedSizeList g (BitVec.ofNat 32 n)
  | .largeList f => (field1 f).map .largeList
  | .struct fs => (fields1 fs).map .struct
  | .union | .map | .dictionary | .extension => none
  | .decimal p s => some (.decimal128 (BitVec.ofNat 8 p) (BitVec.ofNat 8 s))
  | .decimal256 p s => some (.decimal256 (BitVec.ofNat 8 p) (BitVec.ofNat 8 s))
/-- `field2_to_field1`, arrow_conversion.rs 61-109. -/
def field1 : Field2 → Option Field1
  | .mk name t nullable => (type1 t).map fun u => .mk name u nullable
/-- `schema2_to_schema1`, arrow_conversion.rs 51-59. -/
def fields1 : Fields2 → Option Fields1
  | .nil => some .nil
  | .cons f fs => (field1 f).bind fun g => (fields1 fs).map fun gs => .cons g gs
end

/-- `TryFrom<DType> for DataType2`, common/src/types.rs 221-254, of a type that is no list. -/
def simpleTo2 : DType → Option Type2
  | .string => some (.plain .utf8)
  | .int8 => some (.plain .int8)
  | .int16 => some (.plain .int16)
  | .int32 => some (.plain .int32)
  | .int64 => some (.plain .int64)
  | .decimal => some (.decimal 28 16)
  | .boolean => some (.plain .boolean)
  | .timestamp => some (.timestamp .millisecond none)
  | .list _ => none

/-- `TryFrom<DType> for DataType2`, common/src/types.rs 221-254. -/
def dtypeTo2 : DType → Option Type2
  | .list d => simpleTo2 d
  | d => simpleTo2 d

/-- `From<DType> for DataType`, common/src/types.rs 168-192, of a type that is no list. -/
def simpleTo1 : DType → Option Type1
  | .string => some (.plain .utf8)
  | .int8 => some (.plain .int8)
  | .int16 => some (.plain .int16)
  | .int32 => some (.plain .int32)
  | .int64 => some (.plain .int64)
  | .decimal => some (.decimal128 28 16)
  | .boolean => some (.plain .boolean)
  | .timestamp => some (.timestamp .millisecond none)
  | .list _ => none

/-- `From<DType> for DataType`, common/src/types.rs 168-192. -/
def dtypeTo1 : DType → Option Type1
  | .list d => simpleTo1 d
  | d => simpleTo1 d

/-- `TryFrom<DataType2> for DType`, common/src/types.rs 256-287, of a type that is no list. -/
def simpleOf2 : Type2 → Option DType
  | .plain .boolean => some .boolean
  | .plain .int8 => some .int8
  | .plain .int16 => some .int16
  | .plain .int32 => some .int32
  | .plain .int64 => some .int64
  | .timestamp _ _ => some .timestamp
  | .plain .utf8 => some .string
  | .decimal _ _ => some .decimal
  | _ => none

/-- `TryFrom<DataType2> for DType`, common/src/types.rs 256-287. -/
def dtypeOf2 : Type2 → Option DType
  | .list (.mk _ t _) => simpleOf2 t
  | t => simpleOf2 t

/-- `From<DataType> for DType`, common/src/types.rs 194-219, of a type that is no list. -/
def simpleOf1 : Type1 → Option DType
  | .plain .boolean => some .boolean
  | .plain .int8 => some .int8
  | .plain .int16 => some .int16
  | .plain .int32 => some .int32
  | .plain .int64 => some .int64
  | .plain .utf8 => some .string
  | .decimal128 _ _ => some .decimal
  | .timestamp _ _ => some .timestamp
  | _ => none

/-- `From<DataType> for DType`, common/src/types.rs 194-219. -/
def dtypeOf1 : Type1 → Option DType
  | .list (.mk _ t _) => simpleOf1 t
  | t => simpleOf1 t

end OptiPrism.Storage
