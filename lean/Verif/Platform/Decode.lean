import Verif.Platform.Chart

/-!
# Model: decoding of dictionary columns before the filters

`DictionaryDecodeExec` (query/src/physical_plan/dictionary_decode.rs). The plan of a chart decodes the columns of pattern filters right
above the scan of the table (query/src/event_segmentation.rs 298, 547-587), below the filters: every row read is decoded with the
dictionary of the project that asks.
-/

namespace OptiPrism.Platform

open OptiPrism.Meta (Str Kv dictGetValue)
open OptiPrism.Query

/-- `decode_array!`, dictionary_decode.rs 167-186 and 205-211: `key as u64`, and `unwrap` of the lookup; other types than integers are
`unimplemented!`. `none` is a panic. -/
def decodeCell (p : Nat) (kv : Kv) (t d : Str) : Option Cell → Option (Option Cell)
  | none => some none
  | some (.int k) => match dictGetValue p t d (BitVec.ofInt 64 k).toNat kv with
    | .ok s => some (some (.str s))
    | .error _ => none
  | some _ => none

/-- dictionary_decode.rs 198-214: each column by the first entry for it. -/
def decodeRow (p : Nat) (kv : Kv) (ds : List (Str × Str)) (row : QRow) : Option QRow :=
  if ds.all fun d => match ds.find? fun x => x.1 = d.1 with
      | none => true
      | some x => (decodeCell p kv x.2 x.1 (row x.1)).isSome
  then some fun c => match ds.find? fun x => x.1 = c with
    | none => row c
    | some x => (decodeCell p kv x.2 x.1 (row c)).getD none
  else none

/-- The rows that reach the filters: one row that cannot be decoded ends the query. -/
def decodeRows (p : Nat) (kv : Kv) (ds : List (Str × Str)) (rows : List QRow) : Option (List QRow) := rows.mapM (decodeRow p kv ds)

end OptiPrism.Platform
