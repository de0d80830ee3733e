import Verif.Ingest.Model
import Verif.Meta.DictsProps
import Verif.Storage.InsertProps

/-!
# C44, C45, C46, C72: how property values become cells
-/

namespace OptiPrism.Ingest

open OptiPrism.Meta
open OptiPrism.Storage (Bytes Value NamedValue Tbl InsertErr ColType Field typeOk)

/-! ## C44 -/

/-- The two decimals are the same number. -/
def Num.Same (a b : Num) : Prop := a.m * 10 ^ b.scale = b.m * 10 ^ a.scale

/-- The number a cell of a decimal column stands for: `DECIMAL_SCALE` is 16 (common/src/lib.rs). -/
def cellNum (c : BitVec 128) : Num := ⟨c.toInt, 16⟩

/-- What `rust_decimal` can hold: a 96-bit mantissa, scale at most 28. -/
structure Num.Ok (n : Num) : Prop where
  lo : -(2 ^ 96 : Int) < n.m
  hi : n.m < 2 ^ 96
  scale : n.scale ≤ 28

/-- C44 as stated: the cell stands for the number supplied, so equal cells are equal numbers. -/
def C44_full : Prop := ∀ n : Num, n.Ok →
  ∃ c, plainCell .decimal (.number n) = .ok (.decimal (some c)) ∧ (cellNum c).Same n

theorem Nat.pow_right_injective' {a b : Nat} (h : 10 ^ a = 10 ^ b) : a = b := by
  rcases Nat.lt_trichotomy a b with hl | hl | hl
  · exact absurd h (Nat.ne_of_lt (Nat.pow_lt_pow_right (by decide) hl))
  · exact hl
  · exact absurd h.symm (Nat.ne_of_lt (Nat.pow_lt_pow_right (by decide) hl))

theorem toInt_ofInt {m : Int} (h1 : -(2 ^ 96 : Int) < m) (h2 : m < 2 ^ 96) : (BitVec.ofInt 128 m).toInt = m := by
  rw [BitVec.toInt_ofInt]
  apply Int.bmod_eq_of_le <;> omega

/-- C44 (partial): the cell stands for the number supplied exactly when the number is zero or was written with
16 digits after the point. Two numbers have the same cell exactly when their digits are the same, wherever the
point is. Missing: all other scales (the code stores the mantissa and forgets the scale). -/
theorem C44_partial (n : Num) (h : n.Ok) :
    ∃ c, plainCell .decimal (.number n) = .ok (.decimal (some c)) ∧ ((cellNum c).Same n ↔ n.m = 0 ∨ n.scale = 16) ∧
      ∀ n', n'.Ok → (plainCell .decimal (.number n') = .ok (.decimal (some c)) ↔ n'.m = n.m) := by
  refine ⟨_, rfl, ?_, fun n' h' => ?_⟩
  · unfold Num.Same cellNum
    simp only [toInt_ofInt h.lo h.hi]
    constructor
    · intro e
      by_cases hm : n.m = 0
      · exact .inl hm
      · right
        have := Int.eq_of_mul_eq_mul_left hm e
        have h3 : (10 : Nat) ^ n.scale = 10 ^ 16 := by exact_mod_cast this
        exact Nat.pow_right_injective' h3
    · rintro (e | e)
      · simp [e]
      · rw [e]
  · simp only [plainCell, Except.ok.injEq, GValue.decimal.injEq, Option.some.injEq]
    constructor
    · intro e
      have := congrArg BitVec.toInt e
      rwa [toInt_ofInt h'.lo h'.hi, toInt_ofInt h.lo h.hi] at this
    · intro e; rw [e]

example : (⟨15 * 10 ^ 15, 16⟩ : Num).Ok := ⟨by decide, by decide, by decide⟩

/-- 1 and 0.1 are stored as the same cell; 1 and 1.0 as different ones. -/
theorem C44_violated : ¬ C44_full ∧
    plainCell .decimal (.number ⟨1, 0⟩) = plainCell .decimal (.number ⟨1, 1⟩) ∧ ¬ (⟨1, 0⟩ : Num).Same ⟨1, 1⟩ ∧
    plainCell .decimal (.number ⟨1, 0⟩) ≠ plainCell .decimal (.number ⟨10, 1⟩) ∧ (⟨1, 0⟩ : Num).Same ⟨10, 1⟩ := by
  refine ⟨fun h => ?_, rfl, by unfold Num.Same; decide, (fun e => by revert e; simp only [plainCell, Except.ok.injEq, GValue.decimal.injEq, Option.some.injEq]; decide), by unfold Num.Same; decide⟩
  obtain ⟨c, e, hs⟩ := h ⟨1, 0⟩ ⟨by decide, by decide, by decide⟩
  obtain ⟨c', e', hs', -⟩ := C44_partial ⟨1, 0⟩ ⟨by decide, by decide, by decide⟩
  rw [e] at e'
  cases e'
  rcases hs'.mp hs with h | h <;> revert h <;> decide

/-! ## C45 -/

/-- A property is consistent when it has a dictionary type exactly if it uses a dictionary, and then holds
strings (as all properties created by the ingester and at project creation are). -/
structure Consistent (r : Property) : Prop where
  dict : r.isDictionary = r.dictType.isSome

/-- The number is whole. -/
def Num.Whole (n : Num) : Prop := ∃ i : Int, n.m = i * 10 ^ n.scale

/-- The number `i` fits into `w` bits. -/
def Fits (w : Nat) (i : Int) : Prop := -(2 ^ (w - 1) : Int) ≤ i ∧ i < 2 ^ (w - 1)

/-- The integer held by an integer cell. -/
def cellInt : GValue → Option Int
  | .int8 (some v) => some v.toInt
  | .int16 (some v) => some v.toInt
  | .int32 (some v) => some v.toInt
  | .int64 (some v) => some v.toInt
  | _ => none

/-- The width of the integer types. -/
def intWidth : DType → Option Nat
  | .int8 => some 8 | .int16 => some 16 | .int32 => some 32 | .int64 => some 64 | _ => none

/-- C45 as stated: a cell of the column's type or an error (not a panic), and whole numbers keep their value. -/
def C45_full : Prop := ∀ (sys : Str → Str) (p : Nat) (t : Str) (r : Property) (v : PropValue) (w : World), Consistent r →
  (∀ e, (propertyToValue sys p t (r, v) w).1 = .error e → e.isPanic = false) ∧
  ∀ c, (propertyToValue sys p t (r, v) w).1 = .ok c → ∃ ct, colType r = some ct ∧ typeOk (toStore c) ct = true

theorem toInt_some {w : Nat} (hw : 0 < w) {n : Num} {v : BitVec w} (h : n.toInt w = some v) :
    v.toInt = n.m.tdiv (10 ^ n.scale) ∧ Fits w (n.m.tdiv (10 ^ n.scale)) := by
  unfold Num.toInt at h
  dsimp only at h
  split at h
  · rename_i hf
    cases h
    refine ⟨?_, hf⟩
    rw [BitVec.toInt_ofInt]
    have e : (2 : Int) ^ w = 2 * 2 ^ (w - 1) := by
      obtain ⟨k, rfl⟩ : ∃ k, w = k + 1 := ⟨w - 1, by omega⟩
      simp [Int.pow_succ]; omega
    have e' : ((2 ^ w : Nat) : Int) = 2 * 2 ^ (w - 1) := by rw [← e]; simp
    apply Int.bmod_eq_of_le
    · rw [e']; omega
    · rw [e']; omega
  · cases h

/-- The integer part. -/
theorem whole_tdiv {n : Num} {i : Int} (h : n.m = i * 10 ^ n.scale) : n.m.tdiv (10 ^ n.scale) = i := by
  rw [h]
  exact Int.mul_tdiv_cancel _ (by have := Int.pow_pos (n := 10) (m := n.scale) (by decide); omega)

/-- C45 (partial), for properties without a dictionary: what the conversion does for every declared type and
value.
* A number for an integer column is refused by a panic exactly when its integer part does not fit; otherwise
the cell is an integer of the column's width holding the integer part, so a whole number keeps its value.
* Apart from dates for timestamp columns, a converted value has the column's type.
* No other panic.
Missing: timestamp columns get 64-bit integers (which the store refuses, see C72), the panic, and numbers
that are not whole lose their fraction. -/
theorem C45_partial (r : Property) (hr : Consistent r) (hd : r.isDictionary = false) (v : PropValue) :
    (∀ n w, v = .number n → intWidth r.dataType = some w →
      (Fits w (n.m.tdiv (10 ^ n.scale)) → ∃ c, plainCell r.dataType v = .ok c ∧ cellInt c = some (n.m.tdiv (10 ^ n.scale)) ∧
        ∀ i, n.m = i * 10 ^ n.scale → cellInt c = some i) ∧
      (¬ Fits w (n.m.tdiv (10 ^ n.scale)) → plainCell r.dataType v = .error .panic)) ∧
    (∀ c, plainCell r.dataType v = .ok c → r.dataType ≠ .timestamp → ∃ ct, colType r = some ct ∧ typeOk (toStore c) ct = true) ∧
    (∀ e, plainCell r.dataType v = .error e → e.isPanic → ∃ n w, v = .number n ∧ intWidth r.dataType = some w) := by
  have hn : r.dictType = none := by
    have := hr.dict
    rw [hd] at this
    cases h : r.dictType with
    | none => rfl
    | some x => rw [h] at this; cases this
  have key : ∀ (w : Nat) (hw : 0 < w) (k : BitVec w → GValue) (n : Num), (∀ x, cellInt (k x) = some x.toInt) →
      (Fits w (n.m.tdiv (10 ^ n.scale)) → ∃ c, unwrapInt k n = .ok c ∧ cellInt c = some (n.m.tdiv (10 ^ n.scale)) ∧
        ∀ i, n.m = i * 10 ^ n.scale → cellInt c = some i) ∧
      (¬ Fits w (n.m.tdiv (10 ^ n.scale)) → unwrapInt k n = .error .panic) := by
    intro w hw k n hk
    constructor
    · intro hf
      have e : n.toInt w = some (BitVec.ofInt w (n.m.tdiv (10 ^ n.scale))) := if_pos hf
      refine ⟨k (BitVec.ofInt w (n.m.tdiv (10 ^ n.scale))), by simp only [unwrapInt, e], ?_, ?_⟩
      · rw [hk, (toInt_some hw e).1]
      · intro i hi; rw [hk, (toInt_some hw e).1, whole_tdiv hi]
    · intro hf
      have e : n.toInt w = none := if_neg hf
      simp only [unwrapInt, e]
  refine ⟨?_, ?_, ?_⟩
  · intro n w hv hw
    subst hv
    cases hdt : r.dataType <;> rw [hdt] at hw <;> simp only [intWidth, reduceCtorEq, Option.some.injEq] at hw <;> subst hw
    · exact key 8 (by decide) _ n (fun _ => rfl)
    · exact key 16 (by decide) _ n (fun _ => rfl)
    · exact key 32 (by decide) _ n (fun _ => rfl)
    · exact key 64 (by decide) _ n (fun _ => rfl)
  · intro c hc ht
    have hu : ∀ {w : Nat} {k : BitVec w → GValue} {n : Num} {c}, unwrapInt k n = .ok c → ∃ x, c = k x := by
      intro w k n c h
      unfold unwrapInt at h
      split at h
      · cases h
      · cases h; exact ⟨_, rfl⟩
    cases hdt : r.dataType <;> rw [hdt] at hc <;> cases v <;> simp only [plainCell, reduceCtorEq, Except.ok.injEq] at hc <;>
      first
      | (exact absurd hdt ht)
      | (subst hc; exact ⟨_, by simp only [colType, hn, hdt]; rfl, rfl⟩)
      | (obtain ⟨x, rfl⟩ := hu hc; exact ⟨_, by simp only [colType, hn, hdt]; rfl, rfl⟩)
  · intro e he hp
    cases hdt : r.dataType <;> rw [hdt] at he <;> cases v <;> simp only [plainCell, reduceCtorEq, Except.error.injEq] at he <;>
      first
      | (subst he; cases hp)
      | exact ⟨_, _, rfl, rfl⟩

/-- C45 (partial), for dictionary properties: a string becomes an integer cell of the dictionary's width, which
is the column's type; anything else is refused with an error. A panic can only come from the dictionary's own
stored numbers. -/
theorem C45_dictionary_partial (sys : Str → Str) (p : Nat) (t : Str) (r : Property) (hr : Consistent r) (hd : r.isDictionary = true)
    (v : PropValue) (w : World) :
    (∀ c, (propertyToValue sys p t (r, v) w).1 = .ok c → ∃ ct, colType r = some ct ∧ typeOk (toStore c) ct = true) ∧
    (∀ e, (propertyToValue sys p t (r, v) w).1 = .error e →
      (e = .internal ∧ ∀ s, v ≠ .string s) ∨ ∃ s x, v = .string s ∧ e = .metadata x ∧ dictGetOrCreate p t (r.columnName sys) s w.kv = .error x) := by
  have hn : ∃ dt, r.dictType = some dt := by
    have := hr.dict
    rw [hd] at this
    cases h : r.dictType with
    | none => rw [h] at this; cases this
    | some x => exact ⟨x, rfl⟩
  obtain ⟨dt, hdt⟩ := hn
  rw [propertyToValue, if_pos hd]
  cases v with
  | string s =>
    simp only [M.bind, call, callRaw, runCall]
    cases hg : dictGetOrCreate p t (r.columnName sys) s w.kv with
    | error x =>
      simp only [Except.error.injEq]
      exact ⟨fun c hc => (by cases hc), fun e he => .inr ⟨s, x, rfl, he.symm, hg⟩⟩
    | ok a =>
      simp only [hdt, M.pure]
      constructor
      · intro c hc
        cases hc
        cases dt <;> exact ⟨_, by simp only [colType, hdt]; rfl, rfl⟩
      · intro e he; cases he
  | date _ => exact ⟨fun c hc => (by cases hc), fun e he => .inl ⟨(by cases he; rfl), fun s hs => (by cases hs)⟩⟩
  | number _ => exact ⟨fun c hc => (by cases hc), fun e he => .inl ⟨(by cases he; rfl), fun s hs => (by cases hs)⟩⟩
  | bool _ => exact ⟨fun c hc => (by cases hc), fun e he => .inl ⟨(by cases he; rfl), fun s hs => (by cases hs)⟩⟩

/-- The property `event_id` every project has (platform/src/projects.rs 310-319), with the numbers a project
gives it left out. -/
def exInt64 : Property :=
  { propReq .event kEventId (.date ⟨0, 0⟩) with isSystem := true }

/-- The property "Session Length" every project has (projects.rs 410-419). -/
def exStamp : Property := { exInt64 with name := "Session Length".toList, dataType := .timestamp, isSystem := false }

def emptyWorld : World := ⟨[], fun _ => .create 2, []⟩

theorem C45_violated : ¬ C45_full ∧
    Consistent exInt64 ∧ plainCell exInt64.dataType (.number ⟨2 ^ 63, 0⟩) = .error .panic ∧
    plainCell exInt64.dataType (.number ⟨15, 1⟩) = plainCell exInt64.dataType (.number ⟨1, 0⟩) ∧
    Consistent exStamp ∧ ∃ c, plainCell exStamp.dataType (.date ⟨7, 0⟩) = .ok c ∧ ∀ ct, colType exStamp = some ct → typeOk (toStore c) ct = false := by
  refine ⟨fun h => ?_, ⟨rfl⟩, by decide, by decide, ⟨rfl⟩, _, rfl, ?_⟩
  · have := (h id 1 [] exInt64 (.number ⟨2 ^ 63, 0⟩) emptyWorld ⟨rfl⟩).1 .panic (by
      show plainCell exInt64.dataType (.number ⟨2 ^ 63, 0⟩) = _
      decide)
    cases this
  · intro ct h; cases h; rfl

/-! ## C46 -/

/-- `decode_array`, query/src/physical_plan/dictionary_decode.rs: the key of the cell as an unsigned number. -/
def cellKey : GValue → Option Nat
  | .int8 (some v) => some (v.signExtend 64).toNat
  | .int16 (some v) => some (v.signExtend 64).toNat
  | .int32 (some v) => some (v.signExtend 64).toNat
  | .int64 (some v) => some (v.signExtend 64).toNat
  | _ => none

/-- The decoded cell; the code unwraps, so an error is a panic there. -/
def decodeCell (p : Nat) (t d : Str) (kv : Kv) (c : GValue) : Except Err Str :=
  match cellKey c with
  | none => .error .panic
  | some k => dictGetValue p t d k kv

/-- The largest number of strings a dictionary of the type can hold. -/
def dictRoom : DictType → Nat | .int8 => 2 ^ 7 | .int16 => 2 ^ 15 | .int32 => 2 ^ 31 | .int64 => 2 ^ 64

theorem cellKey_dictCell (dt : DictType) (k : Nat) (hk : k < 2 ^ 63) : cellKey (dictCell dt k) = some k ↔ k < dictRoom dt := by
  cases dt <;> simp only [dictCell, cellKey, Option.some.injEq, BitVec.toNat_signExtend, BitVec.msb_eq_decide, BitVec.toNat_setWidth,
    BitVec.toNat_ofNat, decide_eq_true_eq, dictRoom] <;> split <;> omega

theorem cellKey_lt {dt : DictType} {n k : Nat} (h : cellKey (dictCell dt n) = some k) : k < 2 ^ 64 := by
  cases dt <;> simp only [dictCell, cellKey, Option.some.injEq] at h <;> subst h <;> exact BitVec.isLt _

/-- C46, for every history of metadata requests that never writes this dictionary by `create_key`: encoding a
string through a dictionary property succeeds, and the cell decodes to the string, then and after any further
requests, exactly when the number of the string is within the range of the dictionary type. -/
theorem C46_decode_iff {Q : Type} {E : Meta.Env Q} (sys : Str → Str) {p : Nat} {t : Str} {r : Property} {dt : DictType}
    (hr : r.isDictionary = true) (hdt : r.dictType = some dt)
    (hw : '/' ∉ t ∧ '/' ∉ r.columnName sys) {n m : Nat} {w : World}
    (h : Runs E (Req.NoPut p t (r.columnName sys)) [] n w.kv) (hn : n + 1 + m < 2 ^ 62) (s : Str) :
    ∃ c k w1, propertyToValue sys p t (r, .string s) w = (.ok c, w1) ∧ dictGetKey p t (r.columnName sys) s w1.kv = .ok k ∧
      w1.tbl = w.tbl ∧ w1.rows = w.rows ∧
      ∀ kv', Runs E (Req.NoPut p t (r.columnName sys)) w1.kv m kv' →
        (decodeCell p t (r.columnName sys) kv' c = .ok s ↔ k < dictRoom dt) := by
  obtain ⟨k, kv1, e, hs⟩ := C29_stable hw h (m := m) (by omega) s
  have hok : (Req.dictGet p t (r.columnName sys) s : Req Q).exec E w.kv = kv1 := by
    show (runCall (dictGetOrCreate p t (r.columnName sys) s) w.kv).2 = kv1
    simp only [runCall, e]
  have hr1 : Runs E (Req.NoPut p t (r.columnName sys)) [] (n + 1) kv1 := by
    rw [← hok]
    exact .step _ h hw trivial
  have hkey1 : dictGetKey p t (r.columnName sys) s kv1 = .ok k := by
    obtain ⟨k', kv2, e2, hs2⟩ := C29_stable hw hr1 (m := 0) (by omega) s
    have hb := (C29_bijection hw hr1 (by omega)).2
    have := hs kv1
    obtain ⟨hi, -, hl⟩ := h.dict hw (DInv.empty p t _) (by simp only [dictLast, getK, Kv.get]; simp; omega)
    have hl' : dictLast p t (r.columnName sys) w.kv ≤ n := by simpa [dictLast, getK, Kv.get] using hl
    rcases dictGet_spec hw hi (by omega) s with ⟨k', hk, e'⟩ | ⟨-, kv1', e', h1, h2, h3, h4⟩
    · rw [e] at e'; cases e'; exact hk
    · rw [e] at e'; cases e'
      exact (getKey_iff h1 s _).mpr ⟨h3, by omega⟩
  refine ⟨dictCell dt k, k, { w with kv := kv1 }, ?_, hkey1, rfl, rfl, ?_⟩
  · rw [propertyToValue, if_pos hr]
    simp only [M.bind, call, callRaw, runCall, e, hdt, M.pure]
  · intro kv' hk'
    obtain ⟨-, h2, h3⟩ := hs kv' hk'
    have hb := (C29_bijection hw (hr1.trans hk') (by omega)).2
    have hk63 : k < 2 ^ 63 := by
      obtain ⟨hi, -, hl⟩ := (hr1.trans hk').dict hw (DInv.empty p t _) (by simp only [dictLast, getK, Kv.get]; simp; omega)
      have hl' : dictLast p t (r.columnName sys) kv' ≤ n + 1 + m := by simpa [dictLast, getK, Kv.get] using hl
      obtain ⟨h4, h5⟩ := (getKey_iff hi s k).mp h2
      obtain ⟨k', e', -, h6, -⟩ := hi.val s _ h4
      have := le64_inj h5 (by omega) e'
      omega
    rw [← cellKey_dictCell dt k hk63]
    unfold decodeCell
    cases hc : cellKey (dictCell dt k) with
    | none => simp
    | some k' =>
      simp only [Option.some.injEq]
      rw [← hb s k' (cellKey_lt hc), h2, Except.ok.injEq]
      exact eq_comm

/-- C46 (partial): as long as fewer requests than the range of the dictionary type have been made, every string
decodes to itself; for 64-bit dictionaries (all the ingester creates itself) always. Missing: narrower
dictionaries with more strings. -/
theorem C46_partial {Q : Type} {E : Meta.Env Q} (sys : Str → Str) {p : Nat} {t : Str} {r : Property} {dt : DictType}
    (hr : r.isDictionary = true) (hdt : r.dictType = some dt)
    (hw : '/' ∉ t ∧ '/' ∉ r.columnName sys) {n m : Nat} {w : World}
    (h : Runs E (Req.NoPut p t (r.columnName sys)) [] n w.kv) (hn : n + 1 + m < 2 ^ 62) (hroom : n + 1 < dictRoom dt) (s : Str) :
    ∃ c w1, propertyToValue sys p t (r, .string s) w = (.ok c, w1) ∧
      ∀ kv', Runs E (Req.NoPut p t (r.columnName sys)) w1.kv m kv' → decodeCell p t (r.columnName sys) kv' c = .ok s := by
  obtain ⟨c, k, w1, e, hk, -, -, hd⟩ := C46_decode_iff sys hr hdt hw h hn s
  refine ⟨c, w1, e, fun kv' hk' => (hd kv' hk').mpr ?_⟩
  have e2 : (propertyToValue sys p t (r, .string s) w).2.kv = (Req.dictGet p t (r.columnName sys) s : Req Q).exec E w.kv := by
    rw [propertyToValue, if_pos hr]
    simp only [M.bind, call, callRaw]
    show _ = (runCall (dictGetOrCreate p t (r.columnName sys) s) w.kv).2
    cases hc : runCall (dictGetOrCreate p t (r.columnName sys) s) w.kv with
    | mk a b => cases a <;> simp [hdt, M.pure]
  have hr1 : Runs E (Req.NoPut p t (r.columnName sys)) [] (n + 1) w1.kv := by
    rw [e] at e2
    rw [e2]
    exact .step _ h hw trivial
  obtain ⟨hi, -, hl⟩ := hr1.dict hw (DInv.empty p t _) (by simp only [dictLast, getK, Kv.get]; simp; omega)
  have hl' : dictLast p t (r.columnName sys) w1.kv ≤ n + 1 := by simpa [dictLast, getK, Kv.get] using hl
  obtain ⟨h4, h5⟩ := (getKey_iff hi s k).mp hk
  obtain ⟨k', e', -, h6, -⟩ := hi.val s _ h4
  have := le64_inj h5 (by omega) e'
  omega

/-- `n` requests encoding the strings "0", "1", … leave the dictionary with exactly `n` strings. -/
theorem fill {Q : Type} (E : Meta.Env Q) {p : Nat} {t d : Str} (hw : '/' ∉ t ∧ '/' ∉ d) (n : Nat) (hn : n < 2 ^ 62) :
    ∃ kv, Runs E (Req.NoPut p t d) [] n kv ∧ DInv p t d kv ∧ dictLast p t d kv = n ∧
      ∀ i, n ≤ i → getK kv (.dictVal p t d (decimal i)) = none := by
  induction n with
  | zero => exact ⟨[], .refl, DInv.empty p t d, rfl, fun i _ => rfl⟩
  | succ n ih =>
    obtain ⟨kv, h1, h2, h3, h4⟩ := ih (by omega)
    rcases dictGet_spec hw h2 (by omega) (decimal n) with ⟨k, hk, -⟩ | ⟨-, kv', e, g1, g2, g3, g4⟩
    · rw [dictGetKey, h4 n (Nat.le_refl _)] at hk; cases hk
    · have e2 : (Req.dictGet p t d (decimal n) : Req Q).exec E kv = kv' := by
        show (runCall (dictGetOrCreate p t d (decimal n)) kv).2 = kv'
        simp only [runCall, e]
      refine ⟨kv', ?_, g1, by omega, fun i hi => ?_⟩
      · rw [← e2]; exact .step _ h1 hw trivial
      · rw [g4 _ (fun e => by have := decimal_inj e; omega)]; exact h4 i (by omega)

/-- A dictionary property of the type. -/
def exDict (dt : DictType) : Property := { propReq .event kUtmSource (.string []) with dictType := some dt }

/-- The statement without the bound fails for the narrow dictionary types: after 127 strings in an 8-bit
dictionary (32767, 2147483647 for the other two) the next string does not decode to itself. -/
theorem C46_violated (dt : DictType) (h : dt ≠ .int64) : ∃ (w : World) (c : GValue) (w1 : World),
    Runs exEnv (Req.NoPut 1 kEvents ((exDict dt).columnName id)) [] (dictRoom dt - 1) w.kv ∧
    propertyToValue id 1 kEvents (exDict dt, .string (decimal (dictRoom dt - 1))) w = (.ok c, w1) ∧
    decodeCell 1 kEvents ((exDict dt).columnName id) w1.kv c ≠ .ok (decimal (dictRoom dt - 1)) := by
  have hw : '/' ∉ kEvents ∧ '/' ∉ (exDict dt).columnName id := ⟨by unfold kEvents; decide +kernel, by
    show '/' ∉ 'e' :: '_' :: (("str".toList) ++ '_' :: decimal 0)
    decide +kernel⟩
  have hroom : 1 ≤ dictRoom dt ∧ dictRoom dt ≤ 2 ^ 31 := by cases dt <;> first | exact absurd rfl h | decide
  obtain ⟨kv, h1, h2, h3, h4⟩ := fill exEnv (p := 1) hw (dictRoom dt - 1) (by omega)
  obtain ⟨c, k, w1, e, hk, -, -, hd⟩ := C46_decode_iff id (r := exDict dt) (dt := dt) rfl rfl hw (w := ⟨kv, fun _ => .create 2, []⟩) (m := 0) h1
    (by omega) (decimal (dictRoom dt - 1))
  refine ⟨_, c, w1, h1, e, fun hc => ?_⟩
  have hlt := (hd w1.kv .refl).mp hc
  rcases dictGet_spec hw h2 (by omega) (decimal (dictRoom dt - 1)) with ⟨k', hk', -⟩ | ⟨-, kv', e', g1, g2, g3, g4⟩
  · rw [dictGetKey, h4 _ (Nat.le_refl _)] at hk'; cases hk'
  · have hkv : w1.kv = kv' := by
      have : (propertyToValue id 1 kEvents (exDict dt, .string (decimal (dictRoom dt - 1))) ⟨kv, fun _ => .create 2, []⟩).2.kv = kv' := by
        rw [propertyToValue, if_pos (show (exDict dt).isDictionary = true from rfl)]
        simp only [M.bind, call, callRaw, runCall, e']
        rfl
      rw [e] at this; exact this
    rw [hkv, getKey_iff g1, g3] at hk
    have := le64_inj (by omega) hk.2 (Option.some.inj hk.1)
    omega

example : ∃ kv, Runs exEnv (Req.NoPut 1 kEvents ((exDict .int64).columnName id)) [] 3 kv ∧ 3 + 1 < dictRoom .int64 := by
  obtain ⟨kv, h, -⟩ := fill exEnv (p := 1) (t := kEvents) (d := (exDict .int64).columnName id) ⟨by unfold kEvents; decide +kernel, by
    show '/' ∉ 'e' :: '_' :: (("str".toList) ++ '_' :: decimal 0)
    decide +kernel⟩ 3 (by decide)
  exact ⟨kv, h, by decide⟩

/-! ## C72 -/

/-- Inserting a value of another type than its column's is refused. -/
theorem insert_mismatch {t : Tbl} (hs : (t.schema.map Field.name).Nodup) {f : Field} (hf : f ∈ t.schema) {vs : List NamedValue} {v : NamedValue}
    (hv : v ∈ vs) (hn : f.name = v.name) (ht : typeOk v.value f.dt = false) : ∃ e, t.insert vs = .error e := by
  cases h : t.insert vs with
  | error e => exact ⟨e, rfl⟩
  | ok t' =>
    exfalso
    obtain ⟨g, hg, hgn, hgt⟩ := (Storage.C07_insert_validates t hs vs).1 t' h v hv
    have hfg : f = g := nodup_map_inj hs hf hg (hn.trans hgn.symm)
    subst hfg
    rw [(Storage.typeOk_iff _ _).mpr hgt] at ht
    cases ht

theorem string_cell {sys : Str → Str} {p : Nat} {t : Str} {r : Property} {s : Str} {w : World} {k : Nat} {kv' : Kv}
    (hd : r.isDictionary = true) (ht : r.dictType = some .int64) (e : dictGetOrCreate p t (r.columnName sys) s w.kv = .ok (k, kv')) :
    propertyToValue sys p t (r, .string s) w = (.ok (.int64 (some (BitVec.ofNat 64 k))), { w with kv := kv' }) := by
  rw [propertyToValue, if_pos hd]
  simp only [M.bind, call, callRaw, runCall, e, ht, M.pure, dictCell]

/-- C72 as stated: a property that does not exist yet, given as a value of any kind, is created and its value
converted into a cell of the new property's column. -/
def C72_full : Prop := ∀ (sys : Str → Str) (p : Nat) (t : Str) (name : Str) (v : PropValue) (id order : Nat) (w : World),
  (∀ s, v = .string s → ∃ a, dictGetOrCreate p t ({ propReq .event name v with id := id, order := order }.columnName sys) s w.kv = .ok a) →
  ∃ c w', propertyToValue sys p t ({ propReq .event name v with id := id, order := order }, v) w = (.ok c, w') ∧
    ∃ ct, colType (propReq .event name v) = some ct ∧ typeOk (toStore c) ct = true

/-- C72 (partial): for strings, numbers and booleans. Missing: dates. -/
theorem C72_partial (sys : Str → Str) (p : Nat) (t : Str) (ty : PropType) (name : Str) (v : PropValue) (id order : Nat) (w : World)
    (hd : ∀ d, v ≠ .date d)
    (hs : ∀ s, v = .string s → ∃ a, dictGetOrCreate p t ({ propReq ty name v with id := id, order := order }.columnName sys) s w.kv = .ok a) :
    ∃ c w', propertyToValue sys p t ({ propReq ty name v with id := id, order := order }, v) w = (.ok c, w') ∧
      ∃ ct, colType (propReq ty name v) = some ct ∧ typeOk (toStore c) ct = true := by
  cases v with
  | date d => exact absurd rfl (hd d)
  | string s =>
    obtain ⟨⟨k, kv'⟩, e⟩ := hs s rfl
    refine ⟨.int64 (some (BitVec.ofNat 64 k)), { w with kv := kv' }, ?_, .int64, rfl, rfl⟩
    exact string_cell (r := { propReq ty name (.string s) with id := id, order := order }) rfl rfl e
  | number n => exact ⟨.decimal (some (BitVec.ofInt 128 n.m)), w, rfl, .decimal, rfl, rfl⟩
  | bool b => exact ⟨.bool (some b), w, rfl, .boolean, rfl, rfl⟩

example : ∃ a, dictGetOrCreate 1 kEvents "e_str_0".toList "x".toList [] = .ok a := ⟨_, rfl⟩

/-- A date is never stored, whatever property it is sent for: the conversion fails, or it gives a cell that the
store refuses in the property's column. For a property not known before, the conversion fails. -/
theorem C72_dates (sys : Str → Str) (p : Nat) (t : Str) (r : Property) (hr : Consistent r) (d : Time) (w : World) :
    (propertyToValue sys p t (r, .date d) w).1 = .error .internal ∨
    ∃ c, (propertyToValue sys p t (r, .date d) w).1 = .ok c ∧
      ∀ (tb : Tbl) (f : Field) (vs : List NamedValue), (tb.schema.map Field.name).Nodup → f ∈ tb.schema → f.name = String.ofList (r.columnName sys) →
        some f.dt = colType r → nv (r.columnName sys) (toStore c) ∈ vs → ∃ e, tb.insert vs = .error e := by
  cases hd : r.isDictionary with
  | true => left; rw [propertyToValue, if_pos hd]; rfl
  | false =>
    have hn : r.dictType = none := by
      have := hr.dict
      rw [hd] at this
      cases h : r.dictType with
      | none => rfl
      | some x => rw [h] at this; cases this
    have e : propertyToValue sys p t (r, .date d) w = (plainCell r.dataType (.date d), w) := by
      rw [propertyToValue, if_neg (by simp [hd])]; rfl
    rw [e]
    cases hdt : r.dataType with
    | timestamp =>
      right
      refine ⟨_, rfl, fun tb f vs hs hf hfn hft hv => insert_mismatch hs hf hv hfn ?_⟩
      simp only [colType, hn, hdt, Option.some.injEq] at hft
      rw [hft]; rfl
    | _ => left; rfl

theorem C72_violated : ¬ C72_full := by
  intro h
  obtain ⟨c, w', e, -⟩ := h id 1 kEvents [] (.date ⟨0, 0⟩) 1 0 emptyWorld (fun s hs => by cases hs)
  cases e

end OptiPrism.Ingest
