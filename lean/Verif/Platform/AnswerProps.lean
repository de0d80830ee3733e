import Verif.Platform.Answer
import Verif.Platform.ChartDecodeProps

/-!
# C138: values are shown as they are

What is written for the values of an answer: integers, booleans, strings and times are written as they are, a decimal as the nearest
number of thousandths, a missing value as `null`. Holds for columns without missing numbers and decimals of at most 96 bits, and for
single records. In columns a missing number is written as `0.0`, and because the ingester drops the scale of the numbers it is sent
(C44), nearly all of them are shown as `0`.
-/

namespace OptiPrism.Platform

open OptiPrism.Meta (Str)
open OptiPrism.Ingest (Num plainCell)

/-! ## Specification -/

/-- A number of serde as a fraction. -/
def JNum.top : JNum → Int
  | .int v => v
  | .dec t => t

def JNum.bottom : JNum → Nat
  | .int _ => 1
  | .dec _ => 1000

/-- `x` is the integer `v`. -/
def JNum.Is (x : JNum) (v : Int) : Prop := x.top = v * x.bottom

/-- `x` is at most half a thousandth from the decimal with mantissa `m` and 16 digits after the point. -/
def JNum.Near (x : JNum) (m : Int) : Prop := 2000 * (x.top * 10 ^ 16 - m * x.bottom).natAbs ≤ x.bottom * 10 ^ 16

/-- `j` shows the value: NULL as `null`. -/
def Written : Slot → JOut → Prop
  | .int (some v), j => ∃ x : JNum, j = .num x ∧ x.Is v
  | .dec (some m), j => ∃ x : JNum, j = .num x ∧ x.Near m
  | .bool (some b), j => j = .bool b
  | .str (some s), j => j = .str s
  | .ts (some t), j => ∃ x : JNum, j = .num x ∧ x.Is t
  | .int none, j | .dec none, j | .bool none, j | .str none, j | .ts none, j => j = .null

/-- C138 as stated, for columns. -/
def C138_full : Prop :=
  ∀ l : List Slot, ∃ js, columnJson l = some js ∧ js.length = l.length ∧ ∀ (i : Nat) s, l[i]? = some s → ∃ j, js[i]? = some j ∧ Written s j

/-- A decimal fits into 96 bits. -/
def Slot.Fits (s : Slot) : Prop := ∀ m, s = .dec (some m) → m.natAbs < 2 ^ 96

/-! ## Rounding -/

/-- `t` is the number of units of `d` nearest to `m`, the even one of two. -/
structure Nearest (m : Int) (d : Nat) (t : Int) : Prop where
  near : 2 * (t * d - m).natAbs ≤ d
  even : 2 * (t * d - m).natAbs = d → t % 2 = 0

theorem roundTo_nearest (m : Int) {d : Nat} (hd : 0 < d) : Nearest m d (roundTo m d) := by
  have e := Nat.div_add_mod m.natAbs d
  have hr := Nat.mod_lt m.natAbs hd
  have e1 : (((m.natAbs / d : Nat) : Int)) * (d : Int) = ((d * (m.natAbs / d) : Nat) : Int) := by
    rw [Int.natCast_mul, Int.mul_comm]
  have e2 : (((m.natAbs / d + 1 : Nat) : Int)) * (d : Int) = ((d * (m.natAbs / d) : Nat) : Int) + d := by
    rw [Int.natCast_add, Int.add_mul, e1]; simp
  generalize hx : d * (m.natAbs / d) = x at *
  generalize hq : m.natAbs / d = q at *
  generalize hr' : m.natAbs % d = r at *
  constructor
  · unfold roundTo
    simp only [hq, hr']
    split <;> split
    · rw [Int.neg_mul, e2]; simp at *; omega
    · rw [Int.neg_mul, e1]; simp at *; omega
    · rw [e2]; simp at *; omega
    · rw [e1]; simp at *; omega
  · unfold roundTo
    simp only [hq, hr']
    split <;> split
    · rw [Int.neg_mul, e2]; simp at *; omega
    · rw [Int.neg_mul, e1]; simp at *; omega
    · rw [e2]; simp at *; omega
    · rw [e1]; simp at *; omega

theorem Nearest.unique {m : Int} {d : Nat} (hd : 0 < d) {t t' : Int} (h : Nearest m d t) (h' : Nearest m d t') : t = t' := by
  have key : ∀ {a b : Int}, Nearest m d a → Nearest m d b → ¬ a < b := by
    intro a b ha hb hlt
    have e : a * (d : Int) + d ≤ b * d := by
      have := Int.mul_le_mul_of_nonneg_right (show a + 1 ≤ b by omega) (Int.natCast_nonneg d)
      rwa [Int.add_mul, Int.one_mul] at this
    have h1 := ha.near
    have h2 := hb.near
    have h3 : 2 * (a * d - m).natAbs = d := by omega
    have h4 : 2 * (b * d - m).natAbs = d := by omega
    have h5 := ha.even h3
    have h6 := hb.even h4
    have e' : a * (d : Int) + 2 * d ≤ b * d := by
      have := Int.mul_le_mul_of_nonneg_right (show a + 2 ≤ b by omega) (Int.natCast_nonneg d)
      rwa [Int.add_mul] at this
    omega
  have := key h h'
  have := key h' h
  omega

theorem roundTo_mono {m m' : Int} {d : Nat} (hd : 0 < d) (h : m ≤ m') : roundTo m d ≤ roundTo m' d := by
  by_cases hlt : roundTo m' d < roundTo m d
  · exfalso
    have e : roundTo m' d * (d : Int) + d ≤ roundTo m d * d := by
      have := Int.mul_le_mul_of_nonneg_right (show roundTo m' d + 1 ≤ roundTo m d by omega) (Int.natCast_nonneg d)
      rwa [Int.add_mul, Int.one_mul] at this
    have h1 := (roundTo_nearest m hd).near
    have h2 := (roundTo_nearest m' hd).near
    have : m = m' := by omega
    rw [this] at hlt
    omega
  · omega

/-- Rounding what is left of an even number of units. -/
theorem roundTo_rest (m : Int) (k : Int) {d : Nat} (hd : 0 < d) : roundTo (2 * k * d - m) d = 2 * k - roundTo m d := by
  have h := roundTo_nearest m hd
  refine (roundTo_nearest _ hd).unique hd ⟨?_, fun e => ?_⟩
  · have := h.near
    rw [Int.sub_mul]
    omega
  · have h1 := h.even
    rw [Int.sub_mul] at e
    have := h1 (by omega)
    omega

theorem thousandths_some {m : Int} (h : m.natAbs < 2 ^ 96) : thousandths m = some (roundTo m (10 ^ 13)) := if_pos h

theorem thousandths_near {m t : Int} (h : thousandths m = some t) : (JNum.dec t).Near m := by
  unfold thousandths at h
  split at h
  · cases h
    have := (roundTo_nearest m (d := 10 ^ 13) (by decide)).near
    unfold JNum.Near JNum.top JNum.bottom
    simp only [Nat.reducePow, Int.reducePow] at *
    omega
  · cases h

/-! ## C138 -/

theorem slotJson_shows {s : Slot} (hi : s ≠ .int none) (hd : s ≠ .dec none) (hf : s.Fits) : ∃ j, slotJson s = some j ∧ Written s j := by
  match s with
  | .int none => exact absurd rfl hi
  | .int (some v) => exact ⟨_, rfl, _, rfl, by simp [JNum.Is, JNum.top, JNum.bottom]⟩
  | .dec none => exact absurd rfl hd
  | .dec (some m) =>
    have e := thousandths_some (hf m rfl)
    exact ⟨.num (.dec (roundTo m (10 ^ 13))), by rw [slotJson, e]; rfl, _, rfl, thousandths_near e⟩
  | .bool none => exact ⟨_, rfl, rfl⟩
  | .bool (some b) => exact ⟨_, rfl, rfl⟩
  | .str none => exact ⟨_, rfl, rfl⟩
  | .str (some b) => exact ⟨_, rfl, rfl⟩
  | .ts none => exact ⟨_, rfl, rfl⟩
  | .ts (some v) => exact ⟨_, rfl, _, rfl, by simp [JNum.Is, JNum.top, JNum.bottom]⟩

/-- C138, for columns without missing numbers and without decimals of more than 96 bits: every value is shown, in its place. -/
theorem C138_partial (l : List Slot) (h : ∀ s ∈ l, s ≠ .int none ∧ s ≠ .dec none ∧ s.Fits) :
    ∃ js, columnJson l = some js ∧ js.length = l.length ∧ ∀ (i : Nat) s, l[i]? = some s → ∃ j, js[i]? = some j ∧ Written s j := by
  obtain ⟨js, hjs⟩ : ∃ js, columnJson l = some js := mapM_isSome fun s hs => by
    obtain ⟨j, hj, -⟩ := slotJson_shows (h s hs).1 (h s hs).2.1 (h s hs).2.2
    exact ⟨j, hj⟩
  refine ⟨js, hjs, mapM_length hjs, fun i s hs => ?_⟩
  obtain ⟨j, hj, e⟩ := mapM_get hjs hs
  obtain ⟨j', hj', hsh⟩ := slotJson_shows (h s (List.mem_of_getElem? hs)).1 (h s (List.mem_of_getElem? hs)).2.1 (h s (List.mem_of_getElem? hs)).2.2
  rw [e] at hj'
  cases hj'
  exact ⟨j, hj, hsh⟩

/-- A single record shows all its values, and the missing ones as missing. -/
theorem C138_single (s : Slot) (hf : s.Fits) : ∃ j, scalarJson s = some j ∧ Written s j := by
  match s with
  | .int none | .dec none | .bool none | .str none | .ts none => exact ⟨_, rfl, rfl⟩
  | .int (some v) => exact ⟨_, rfl, _, rfl, by simp [JNum.Is, JNum.top, JNum.bottom]⟩
  | .dec (some m) =>
    have e := thousandths_some (hf m rfl)
    exact ⟨.num (.dec (roundTo m (10 ^ 13))), by rw [scalarJson, e]; rfl, _, rfl, thousandths_near e⟩
  | .bool (some b) => exact ⟨_, rfl, rfl⟩
  | .str (some b) => exact ⟨_, rfl, rfl⟩
  | .ts (some v) => exact ⟨_, rfl, _, rfl, by simp [JNum.Is, JNum.top, JNum.bottom]⟩

/-- Decimals keep their order, those with at most three digits after the point are shown exactly, and no other value of 96 bits is shown
as the same number unless it is at most a thousandth away. -/
theorem C138_decimals {m m' t t' : Int} (h : slotJson (.dec (some m)) = some (.num (.dec t))) (h' : slotJson (.dec (some m')) = some (.num (.dec t'))) :
    (m ≤ m' → t ≤ t') ∧ (∀ k, m = k * 10 ^ 13 → t = k) ∧ (t = t' → (m - m').natAbs ≤ 10 ^ 13) := by
  have get : ∀ {m t : Int}, slotJson (.dec (some m)) = some (.num (.dec t)) → t = roundTo m (10 ^ 13) := by
    intro m t h
    rw [slotJson, thousandths] at h
    split at h
    · simp only [Option.map_some, Option.some.injEq, JOut.num.injEq, JNum.dec.injEq] at h
      exact h.symm
    · cases h
  rw [get h, get h']
  refine ⟨roundTo_mono (by decide), fun k e => ?_, fun e => ?_⟩
  · refine (roundTo_nearest m (d := 10 ^ 13) (by decide)).unique (by decide) ⟨?_, fun e' => ?_⟩
    · rw [e]; simp
    · exfalso; rw [e] at e'; revert e'; simp
  · have h1 := (roundTo_nearest m (d := 10 ^ 13) (by decide)).near
    have h2 := (roundTo_nearest m' (d := 10 ^ 13) (by decide)).near
    rw [e] at h1
    omega

/-- 12.5 and 0.0005 (a tie, shown as 0), a string, a missing string, a time. -/
example : columnJson [.dec (some 125000000000000000)] = some [.num (.dec 12500)] ∧ columnJson [.dec (some 5000000000000)] = some [.num (.dec 0)] ∧
    columnJson [.str (some "a".toList), .str none] = some [.str "a".toList, .null] ∧ columnJson [.ts (some 7)] = some [.num (.int 7)] ∧
    columnJson [.dec (some (-15000000000000))] = some [.num (.dec (-2))] := by decide +kernel

/-- In a column a missing number is shown as the number 0, a missing decimal exactly as the decimal 0 is; the same value in a single record
is shown as missing. -/
theorem C138_missing_violated : ¬ C138_full ∧ slotJson (.dec none) = slotJson (.dec (some 0)) ∧
    (∃ x, slotJson (.int none) = some (.num x) ∧ x.Is 0) ∧ scalarJson (.dec none) = some .null := by
  refine ⟨fun h => ?_, by decide +kernel, ⟨_, rfl, rfl⟩, rfl⟩
  obtain ⟨js, hjs, -, hs⟩ := h [.int none]
  obtain ⟨j, hj, he⟩ := hs 0 (.int none) rfl
  cases hjs
  cases hj
  cases he

/-- A decimal of more than 96 bits, such as the sum of two large ones, makes the whole answer panic. -/
theorem C138_large_violated {m : Int} (hm : 2 ^ 96 ≤ m.natAbs) (l l' : List Slot) : columnJson (l ++ .dec (some m) :: l') = none := by
  have e : slotJson (.dec (some m)) = none := by
    rw [slotJson, thousandths, if_neg (Nat.not_lt.mpr hm)]
    rfl
  match h : columnJson (l ++ .dec (some m) :: l') with
  | none => rfl
  | some js =>
    obtain ⟨j, -, hj⟩ := mapM_get h (i := l.length) (a := .dec (some m)) (by simp)
    rw [e] at hj
    cases hj

/-- A number sent for a decimal property and then shown: every one of at most twelve digits, whatever its point, is shown as 0. -/
theorem C138_sent_violated (n : Num) (h : n.m.natAbs ≤ 5 * 10 ^ 12) :
    ∃ c, plainCell .decimal (.number n) = .ok (.decimal (some c)) ∧ slotJson (.dec (some c.toInt)) = some (.num (.dec 0)) ∧
      scalarJson (.dec (some c.toInt)) = some (.num (.dec 0)) := by
  refine ⟨_, rfl, ?_⟩
  have e : (BitVec.ofInt 128 n.m).toInt = n.m := BitVec.toInt_ofInt_eq_self (by decide) (by omega) (by omega)
  have e' : thousandths n.m = some 0 := by
    rw [thousandths_some (by omega)]
    congr 1
    refine (roundTo_nearest n.m (d := 10 ^ 13) (by decide)).unique (by decide) ⟨?_, fun _ => rfl⟩
    simp only [Int.zero_mul, Nat.reducePow] at *
    omega
  rw [e, slotJson, scalarJson, e']
  exact ⟨rfl, rfl⟩

/-- 5, 19.99 and 123456 are such numbers. -/
example : ∀ n ∈ [(⟨5, 0⟩ : Num), ⟨1999, 2⟩, ⟨123456, 0⟩], n.m.natAbs ≤ 5 * 10 ^ 12 := by decide

end OptiPrism.Platform
