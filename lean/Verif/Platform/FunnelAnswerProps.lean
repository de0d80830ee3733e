import Verif.Platform.AnswerProps

/-!
# C139: the answer to a funnel

The answer has for every step the step's name and one entry for every row of the result, with that row's labels and bucket and that
step's own numbers: the sums over the workers of those who reached it, dropped off and of their times, and the averages of the workers'
ratios, rounded to thousandths. Rows with different groups cannot always be told apart: missing values are labelled like the empty string, or
the request panics, and decimals are labelled by their rounded values.
-/

namespace OptiPrism.Platform

open OptiPrism.Meta (Str)
open OptiPrism.Query (StepResult conversionRatio avgTime)

/-! ## Specification -/

/-- A row of the result as the workers leave it: who it is about and what each worker counted. -/
structure Found where
  segment : Int
  groups : List Slot
  ts : Int
  parts : List (Nat → StepResult)

/-- The average of the workers' mantissas, cut off. -/
def mean (ms : List Int) : Int := ms.sum.tdiv ms.length

/-- The data `d` of step `i` is about the row `x`. -/
structure Tells (D : Mantissa) (x : Found) (i : Nat) (d : StepData) : Prop where
  ts : d.ts = x.ts
  total : d.total = (x.parts.map fun b => (b i).total).sum
  dropped : d.dropped = (x.parts.map fun b => (b i).dropped).sum
  time : d.time = (x.parts.map fun b => (b i).time).sum
  fromStart : d.fromStart = (x.parts.map fun b => (b i).fromStart).sum
  ratio : Nearest (mean (x.parts.map fun b => D (conversionRatio b i))) (10 ^ 13) d.ratio
  avg : Nearest (mean (x.parts.map fun b => D (avgTime b i))) (10 ^ 13) d.avg
  avgStart : Nearest (mean (x.parts.map fun b => D (avgFromStart b i))) (10 ^ 13) d.avgStart
  dropRatio : Nearest (mean (x.parts.map fun b => 100 * 10 ^ 16 - D (conversionRatio b i))) (10 ^ 13) d.dropRatio

/-- The mantissas of step `i` fit into 96 bits. -/
structure FitStep (D : Mantissa) (b : Nat → StepResult) (i : Nat) : Prop where
  ratio : (D (conversionRatio b i)).natAbs < 2 ^ 96
  avg : (D (avgTime b i)).natAbs < 2 ^ 96
  avgStart : (D (avgFromStart b i)).natAbs < 2 ^ 96
  dropRatio : (100 * 10 ^ 16 - D (conversionRatio b i)).natAbs < 2 ^ 96

/-- The rows of the result for `n` steps. -/
def Found.row (D : Mantissa) (n : Nat) (x : Found) : FunnelRowOut := resultRow D n x.segment x.groups x.ts x.parts

/-- The printer keeps different values apart. -/
structure Faithful (P : Printer) : Prop where
  int : ∀ a b, P.int a = P.int b → a = b
  dec : ∀ a b, P.dec a = P.dec b → a = b
  bool : ∀ a b, P.bool a = P.bool b → a = b
  ts : ∀ a b, P.ts a = P.ts b → a = b
  point : ∀ a b, P.dec a ≠ P.int b

/-- Slots of the same column. -/
def SameColumn : Slot → Slot → Prop
  | .int _, .int _ | .dec _, .dec _ | .bool _, .bool _ | .str _, .str _ | .ts _, .ts _ => True
  | _, _ => False

/-- Rows of the same result. -/
def SameResult (a b : Found) : Prop := a.groups.length = b.groups.length ∧
  ∀ (k : Nat) s t, a.groups[k]? = some s → b.groups[k]? = some t → SameColumn s t

/-- C139 as stated: with a printer that keeps values apart there is an answer to every result, with the numbers of the rows, and rows
about different segments, groups or buckets can be told apart in it. -/
def C139_full (P : Printer) : Prop :=
  ∀ (D : Mantissa) (names : List Str) (xs : List Found), (∀ x ∈ xs, x.parts ≠ [] ∧ ∀ b ∈ x.parts, ∀ i, i < names.length → FitStep D b i) →
    (∀ x ∈ xs, ∀ y ∈ xs, SameResult x y) →
    ∃ ans, funnelAnswer P names (xs.map (Found.row D names.length)) = some ans ∧ ans.length = names.length ∧
      ∀ (i : Nat) name, names[i]? = some name → ∃ ds, ans[i]? = some (name, ds) ∧ ds.length = xs.length ∧
        ∀ (j : Nat) x, xs[j]? = some x → ∃ d, ds[j]? = some d ∧ Tells D x i d ∧
          ∀ (k : Nat) y d', xs[k]? = some y → ds[k]? = some d' → d.groups = d'.groups → d.ts = d'.ts →
            x.segment = y.segment ∧ x.groups = y.groups ∧ x.ts = y.ts

/-- A value that is there, and if it is a decimal of 96 bits, has at most three digits after the point. -/
def Slot.Short : Slot → Prop
  | .dec (some m) => m.natAbs < 2 ^ 96 ∧ ∃ k, m = k * 10 ^ 13
  | .int v => v ≠ none
  | .bool v => v ≠ none
  | .str v => v ≠ none
  | .ts v => v ≠ none
  | .dec none => False

/-! ## The cells of a row -/

theorem resultCells_eq (D : Mantissa) {parts : List (Nat → StepResult)} (hp : parts ≠ []) (i : Nat) : resultCells D parts i =
    [.int (parts.map fun b => (b i).total).sum, .dec (mean (parts.map fun b => D (conversionRatio b i))),
      .dec (mean (parts.map fun b => D (avgTime b i))), .dec (mean (parts.map fun b => D (avgFromStart b i))),
      .int (parts.map fun b => (b i).dropped).sum, .dec (mean (parts.map fun b => 100 * 10 ^ 16 - D (conversionRatio b i))),
      .int (parts.map fun b => (b i).time).sum, .int (parts.map fun b => (b i).fromStart).sum] := by
  cases parts with
  | nil => exact absurd rfl hp
  | cons b bs =>
    have hr : List.range 8 = [0, 1, 2, 3, 4, 5, 6, 7] := by decide
    simp [resultCells, hr, stepCells, mergeCells, mean, Function.comp_def]

theorem flatMap_get {α : Type} (f : Nat → List α) {w : Nat} (hw : ∀ i, (f i).length = w) {n i k : Nat} (hi : i < n) (hk : k < w) :
    ((List.range n).flatMap f)[i * w + k]? = (f i)[k]? := by
  have hl : ∀ n, ((List.range n).flatMap f).length = n * w := by
    intro n
    induction n with
    | zero => simp
    | succ n ih => rw [List.range_succ, List.flatMap_append, List.length_append, ih]; simp [hw, Nat.succ_mul]
  induction n with
  | zero => omega
  | succ n ih =>
    rw [List.range_succ, List.flatMap_append]
    by_cases h : i < n
    · have : i * w + w ≤ n * w := by rw [← Nat.succ_mul]; exact Nat.mul_le_mul_right _ h
      rw [List.getElem?_append_left (by rw [hl]; omega), ih h]
    · have e : i = n := by omega
      subst e
      rw [List.getElem?_append_right (by rw [hl]; omega), hl]
      simp [show i * w + k - i * w = k by omega]

theorem filterMap_flatMap' {α β : Type} (g : α → Option β) (f : Nat → List α) (l : List Nat) : (l.flatMap f).filterMap g = l.flatMap fun i => (f i).filterMap g := by
  induction l with
  | nil => rfl
  | cons a l ih => simp [List.filterMap_append, ih]

theorem int_get (D : Mantissa) {n : Nat} {x : Found} (hp : x.parts ≠ []) {i k : Nat} (hi : i < n) (hk : k < 4) :
    (intCells (x.row D n).cells)[i * 4 + k]? =
      [(x.parts.map fun b => (b i).total).sum, (x.parts.map fun b => (b i).dropped).sum, (x.parts.map fun b => (b i).time).sum,
        (x.parts.map fun b => (b i).fromStart).sum][k]? := by
  show (((List.range n).flatMap (resultCells D x.parts)).filterMap _)[i * 4 + k]? = _
  rw [filterMap_flatMap', flatMap_get _ (fun i => by rw [resultCells_eq D hp]; rfl) hi hk, resultCells_eq D hp]
  rfl

theorem dec_get (D : Mantissa) {n : Nat} {x : Found} (hp : x.parts ≠ []) {i k : Nat} (hi : i < n) (hk : k < 4) :
    (decCells (x.row D n).cells)[i * 4 + k]? =
      [mean (x.parts.map fun b => D (conversionRatio b i)), mean (x.parts.map fun b => D (avgTime b i)),
        mean (x.parts.map fun b => D (avgFromStart b i)), mean (x.parts.map fun b => 100 * 10 ^ 16 - D (conversionRatio b i))][k]? := by
  show (((List.range n).flatMap (resultCells D x.parts)).filterMap _)[i * 4 + k]? = _
  rw [filterMap_flatMap', flatMap_get _ (fun i => by rw [resultCells_eq D hp]; rfl) hi hk, resultCells_eq D hp]
  rfl

theorem sum_natAbs {B : Nat} : ∀ {ms : List Int}, (∀ m ∈ ms, m.natAbs ≤ B) → ms.sum.natAbs ≤ ms.length * B
  | [], _ => by simp
  | m :: ms, h => by
    have h1 := h m (by simp)
    have h2 := sum_natAbs (ms := ms) (B := B) fun x hx => h x (by simp [hx])
    rw [List.sum_cons, List.length_cons, Nat.succ_mul]
    omega

theorem mean_fits {ms : List Int} (h : ∀ m ∈ ms, m.natAbs < 2 ^ 96) : (mean ms).natAbs < 2 ^ 96 := by
  have h1 := sum_natAbs (ms := ms) (B := 2 ^ 96 - 1) fun m hm => by have := h m hm; omega
  unfold mean
  rw [Int.natAbs_tdiv]
  change ms.sum.natAbs / (ms.length : Int).natAbs < 2 ^ 96
  rcases Nat.eq_zero_or_pos ms.length with e | e
  · rw [e]; simp
  · have : ms.sum.natAbs / (ms.length : Int).natAbs ≤ 2 ^ 96 - 1 := by
      rw [Int.natAbs_natCast]
      exact Nat.div_le_of_le_mul h1
    omega

theorem mean_thousandths {α : Type} {f : α → Int} {l : List α} (h : ∀ a ∈ l, (f a).natAbs < 2 ^ 96) :
    thousandths (mean (l.map f)) = some (roundTo (mean (l.map f)) (10 ^ 13)) :=
  thousandths_some (mean_fits fun m hm => by
    obtain ⟨a, ha, e⟩ := List.mem_map.mp hm
    rw [← e]
    exact h a ha)

/-! ## C139 -/

/-- One entry. -/
theorem stepData_tells (P : Printer) (D : Mantissa) {n : Nat} {x : Found} (hp : x.parts ≠ []) {i : Nat} (hi : i < n)
    (hf : ∀ b ∈ x.parts, FitStep D b i) {ls : List Str} (hl : x.groups.mapM (slotLabel P) = some ls) :
    ∃ d, stepData P (x.row D n) i = some d ∧ d.groups = P.int x.segment :: ls ∧ Tells D x i d := by
  have hi0 := int_get D hp hi (k := 0) (by decide)
  have hi1 := int_get D hp hi (k := 1) (by decide)
  have hi2 := int_get D hp hi (k := 2) (by decide)
  have hi3 := int_get D hp hi (k := 3) (by decide)
  have hd0 := dec_get D hp hi (k := 0) (by decide)
  have hd1 := dec_get D hp hi (k := 1) (by decide)
  have hd2 := dec_get D hp hi (k := 2) (by decide)
  have hd3 := dec_get D hp hi (k := 3) (by decide)
  simp only [Nat.add_zero, List.getElem?_cons_zero, List.getElem?_cons_succ] at hi0 hi1 hi2 hi3 hd0 hd1 hd2 hd3
  have hg : rowLabels P (x.row D n) = some (P.int x.segment :: ls) := by
    unfold rowLabels
    rw [show (x.row D n).groups = x.groups from rfl, hl]
    rfl
  have h13 : 0 < 10 ^ 13 := by decide
  refine ⟨⟨P.int x.segment :: ls, x.ts, _, _, _, _, _, _, _, _⟩, ?_, rfl, ⟨rfl, rfl, rfl, rfl, rfl, roundTo_nearest _ h13, roundTo_nearest _ h13,
    roundTo_nearest _ h13, roundTo_nearest _ h13⟩⟩
  unfold stepData
  rw [hg, hi0, hi1, hi2, hi3, hd0, hd1, hd2, hd3]
  simp only [Option.bind_some, Option.bind_eq_bind, mean_thousandths fun b hb => (hf b hb).ratio, mean_thousandths fun b hb => (hf b hb).avg,
    mean_thousandths fun b hb => (hf b hb).avgStart, mean_thousandths fun b hb => (hf b hb).dropRatio]
  rfl

/-- C139 but for the labels: the steps are in order, each with its name and one entry for each row, in order, with the numbers of that
step and row. -/
theorem C139_partial (P : Printer) (D : Mantissa) (names : List Str) (xs : List Found)
    (hp : ∀ x ∈ xs, x.parts ≠ [] ∧ ∀ b ∈ x.parts, ∀ i, i < names.length → FitStep D b i)
    (hl : ∀ x ∈ xs, ∃ ls, x.groups.mapM (slotLabel P) = some ls) :
    ∃ ans, funnelAnswer P names (xs.map (Found.row D names.length)) = some ans ∧ ans.length = names.length ∧
      ∀ (i : Nat) name, names[i]? = some name → ∃ ds, ans[i]? = some (name, ds) ∧ ds.length = xs.length ∧
        ∀ (j : Nat) x, xs[j]? = some x → ∃ d ls, ds[j]? = some d ∧ x.groups.mapM (slotLabel P) = some ls ∧
          d.groups = P.int x.segment :: ls ∧ Tells D x i d := by
  have step : ∀ i, i < names.length → ∃ ds, (xs.map (Found.row D names.length)).mapM (fun r => stepData P r i) = some ds := fun i hi =>
    mapM_isSome fun r hr => by
      obtain ⟨x, hx, rfl⟩ := List.mem_map.mp hr
      obtain ⟨ls, hls⟩ := hl x hx
      obtain ⟨d, hd, -⟩ := stepData_tells P D (hp x hx).1 hi (fun b hb => (hp x hx).2 b hb i hi) hls
      exact ⟨d, hd⟩
  obtain ⟨ans, hans⟩ : ∃ ans, funnelAnswer P names (xs.map (Found.row D names.length)) = some ans := mapM_isSome fun a ha => by
    obtain ⟨name, i⟩ := a
    have := List.mem_zipIdx ha
    obtain ⟨ds, hds⟩ := step i (by omega)
    exact ⟨(name, ds), by rw [hds]; rfl⟩
  refine ⟨ans, hans, by rw [mapM_length hans, List.length_zipIdx], fun i name hn => ?_⟩
  have hi : i < names.length := (List.getElem?_eq_some_iff.mp hn).1
  obtain ⟨a, ha, e⟩ := mapM_get hans (i := i) (a := (name, i)) (by rw [List.getElem?_zipIdx, hn]; simp)
  obtain ⟨ds, hds⟩ := step i hi
  simp only [hds, Option.bind_eq_bind, Option.bind_some, Option.pure_def, Option.some.injEq] at e
  subst e
  refine ⟨ds, ha, by rw [mapM_length hds, List.length_map], fun j x hx => ?_⟩
  have hm := List.mem_of_getElem? hx
  obtain ⟨ls, hls⟩ := hl x hm
  obtain ⟨d, hd, hg, ht⟩ := stepData_tells P D (hp x hm).1 hi (fun b hb => (hp x hm).2 b hb i hi) hls
  obtain ⟨d', hd', e⟩ := mapM_get hds (i := j) (a := x.row D names.length) (by rw [List.getElem?_map, hx]; rfl)
  rw [hd] at e
  cases e
  exact ⟨d, ls, hd', hls, hg, ht⟩

/-- With one worker, and a conversion to decimals that is off by at most one in the last place, the ratio shown is the share in percent of
those who made the first step, to half a thousandth (and what the conversion is off). -/
theorem C139_ratio (D : Mantissa) {x : Found} {b : Nat → StepResult} (hx : x.parts = [b]) {i : Nat} {d : StepData} (h : Tells D x i d)
    (hD : conversionRatio b i * 10 ^ 16 - 1 ≤ (D (conversionRatio b i) : Rat) ∧ (D (conversionRatio b i) : Rat) ≤ conversionRatio b i * 10 ^ 16 + 1) :
    1000 * conversionRatio b i - (1 / 2 + 1 / 10 ^ 13) ≤ (d.ratio : Rat) ∧ (d.ratio : Rat) ≤ 1000 * conversionRatio b i + (1 / 2 + 1 / 10 ^ 13) := by
  have hr := h.ratio.near
  rw [hx] at hr
  simp only [List.map_cons, List.map_nil, mean, List.sum_cons, List.sum_nil, Int.add_zero, List.length_cons, List.length_nil, Nat.zero_add,
    Int.natCast_one, Int.tdiv_one] at hr
  have h1 : d.ratio * 10 ^ 13 * 2 ≤ D (conversionRatio b i) * 2 + 10 ^ 13 := by simp only [Nat.reducePow, Int.reducePow] at *; omega
  have h2 : D (conversionRatio b i) * 2 ≤ d.ratio * 10 ^ 13 * 2 + 10 ^ 13 := by simp only [Nat.reducePow, Int.reducePow] at *; omega
  have h1' : ((d.ratio * 10 ^ 13 * 2 : Int) : Rat) ≤ ((D (conversionRatio b i) * 2 + 10 ^ 13 : Int) : Rat) := by exact_mod_cast h1
  have h2' : ((D (conversionRatio b i) * 2 : Int) : Rat) ≤ ((d.ratio * 10 ^ 13 * 2 + 10 ^ 13 : Int) : Rat) := by exact_mod_cast h2
  push_cast at h1' h2'
  grind

/-- With one worker the two ratios of a step add up to 100 percent. -/
theorem C139_whole (D : Mantissa) {x : Found} {b : Nat → StepResult} (hx : x.parts = [b]) {i : Nat} {d : StepData} (h : Tells D x i d) :
    d.ratio + d.dropRatio = 100 * 1000 := by
  have hr := h.ratio
  have hd := h.dropRatio
  rw [hx] at hr hd
  simp only [List.map_cons, List.map_nil, mean, List.sum_cons, List.sum_nil, Int.add_zero, List.length_cons, List.length_nil, Nat.zero_add,
    Int.natCast_one, Int.tdiv_one] at hr hd
  have h13 : 0 < 10 ^ 13 := by decide
  rw [hr.unique h13 (roundTo_nearest _ h13), hd.unique h13 (roundTo_nearest _ h13)]
  have := roundTo_rest (D (conversionRatio b i)) 50000 h13
  rw [show (2 * 50000 * ((10 ^ 13 : Nat) : Int)) = 100 * 10 ^ 16 by decide] at this
  rw [this]
  omega

/-! ### Labels -/

theorem decLabel_short (P : Printer) {m k : Int} (h : m.natAbs < 2 ^ 96) (e : m = k * 10 ^ 13) :
    decLabel P m = some (if k % 1000 = 0 then P.int (k / 1000) else P.dec k) := by
  have : roundTo m (10 ^ 13) = k := by
    refine (roundTo_nearest m (d := 10 ^ 13) (by decide)).unique (by decide) ⟨?_, fun e' => ?_⟩
    · rw [e]; simp
    · exfalso; rw [e] at e'; revert e'; simp
  rw [decLabel, thousandths_some h, this]
  rfl

theorem slotLabel_short (P : Printer) {s : Slot} (h : s.Short) : ∃ l, slotLabel P s = some l := by
  match s with
  | .int _ | .bool _ | .str _ | .ts _ => exact ⟨_, rfl⟩
  | .dec none => exact h.elim
  | .dec (some m) =>
    obtain ⟨hf, k, e⟩ := h
    exact ⟨_, decLabel_short P hf e⟩

theorem slotLabel_inj {P : Printer} (hP : Faithful P) {s t : Slot} (hc : SameColumn s t) (hs : s.Short) (ht : t.Short)
    (e : slotLabel P s = slotLabel P t) : s = t := by
  match s, t with
  | .int (some a), .int (some b) => rw [hP.int a b (Option.some.inj e)]
  | .bool (some a), .bool (some b) => rw [hP.bool a b (Option.some.inj e)]
  | .str (some a), .str (some b) => rw [show a = b from Option.some.inj e]
  | .ts (some a), .ts (some b) => rw [hP.ts a b (Option.some.inj e)]
  | .dec (some a), .dec (some b) =>
    obtain ⟨ha, k, ea⟩ := hs
    obtain ⟨hb, k', eb⟩ := ht
    change decLabel P a = decLabel P b at e
    rw [decLabel_short P ha ea, decLabel_short P hb eb] at e
    have e := Option.some.inj e
    have : k = k' := by
      split at e <;> split at e
      · have := hP.int _ _ e; omega
      · exact absurd e.symm (hP.point _ _)
      · exact absurd e (hP.point _ _)
      · exact hP.dec _ _ e
    rw [ea, eb, this]
  | .int none, _ | .bool none, _ | .str none, _ | .ts none, _ => exact absurd rfl hs
  | _, .int none | _, .bool none | _, .str none | _, .ts none => exact absurd rfl ht
  | .dec none, _ => exact hs.elim
  | _, .dec none => exact ht.elim

/-- Rows whose groups are all there, and have at most three digits after the point, can be told apart. -/
theorem C139_labels {P : Printer} (hP : Faithful P) {x y : Found} (hr : SameResult x y) (hx : ∀ s ∈ x.groups, s.Short) (hy : ∀ s ∈ y.groups, s.Short) :
    ∃ lx ly, x.groups.mapM (slotLabel P) = some lx ∧ y.groups.mapM (slotLabel P) = some ly ∧
      (P.int x.segment :: lx = P.int y.segment :: ly → x.segment = y.segment ∧ x.groups = y.groups) := by
  obtain ⟨lx, hlx⟩ : ∃ l, x.groups.mapM (slotLabel P) = some l := mapM_isSome fun s hs => slotLabel_short P (hx s hs)
  obtain ⟨ly, hly⟩ : ∃ l, y.groups.mapM (slotLabel P) = some l := mapM_isSome fun s hs => slotLabel_short P (hy s hs)
  refine ⟨lx, ly, hlx, hly, fun e => ?_⟩
  obtain ⟨e1, e2⟩ := List.cons.inj e
  refine ⟨hP.int _ _ e1, List.ext_getElem? fun k => ?_⟩
  match hk : x.groups[k]? with
  | none =>
    have := List.getElem?_eq_none_iff.mp hk
    rw [List.getElem?_eq_none (by have := hr.1; omega)]
  | some s =>
    have hlt := (List.getElem?_eq_some_iff.mp hk).1
    have hk' : y.groups[k]? = some (y.groups[k]'(by have := hr.1; omega)) := List.getElem?_eq_getElem _
    obtain ⟨l, hl, el⟩ := mapM_get hlx hk
    obtain ⟨l', hl', el'⟩ := mapM_get hly hk'
    rw [e2, hl'] at hl
    cases hl
    rw [hk', slotLabel_inj hP (hr.2 k _ _ hk hk') (hx _ (List.mem_of_getElem? hk)) (hy _ (List.mem_of_getElem? hk')) (el.trans el'.symm)]

/-- Whatever the printer: a missing string is labelled like the empty one, the decimals 1 and 2 of the last place alike, and a missing decimal like
the one that happens to stand in its slot. -/
theorem C139_alike (P : Printer) : slotLabel P (.str none) = slotLabel P (.str (some [])) ∧
    slotLabel P (.dec (some 1)) = slotLabel P (.dec (some 2)) ∧ slotLabel P (.dec none) = slotLabel P (.dec (some P.under)) := by
  refine ⟨rfl, ?_, rfl⟩
  have e1 : thousandths 1 = some 0 := by decide +kernel
  have e2 : thousandths 2 = some 0 := by decide +kernel
  simp only [slotLabel, decLabel, Option.getD_some, e1, e2]

/-- If what stands there does not fit into 96 bits, as the smallest `i128` which arrow's row format leaves for NULL, a row with a missing decimal makes
the request panic. -/
theorem C139_missing_violated (P : Printer) (hu : 2 ^ 96 ≤ P.under.natAbs) (name : Str) (names : List Str) (rows rows' : List FunnelRowOut) (r : FunnelRowOut)
    (hr : .dec none ∈ r.groups) : funnelAnswer P (name :: names) (rows ++ r :: rows') = none := by
  have hs : slotLabel P (.dec none) = none := by
    show decLabel P P.under = none
    rw [decLabel, thousandths, if_neg (Nat.not_lt.mpr hu)]
    rfl
  have hg : r.groups.mapM (slotLabel P) = none := by
    match h : r.groups.mapM (slotLabel P) with
    | none => rfl
    | some ls =>
      obtain ⟨k, hk⟩ := List.getElem?_of_mem hr
      obtain ⟨l, -, e⟩ := mapM_get h hk
      rw [hs] at e
      cases e
  have hd : ∀ i, stepData P r i = none := fun i => by
    unfold stepData rowLabels
    rw [hg]
    rfl
  have hm : ∀ i, (rows ++ r :: rows').mapM (fun r => stepData P r i) = none := fun i => by
    match h : (rows ++ r :: rows').mapM (fun r => stepData P r i) with
    | none => rfl
    | some ds =>
      obtain ⟨d, -, e⟩ := mapM_get h (i := rows.length) (a := r) (by simp)
      rw [hd i] at e
      cases e
  unfold funnelAnswer
  rw [List.zipIdx_cons, List.mapM_cons]
  simp only [hm]
  rfl

/-- What the workers of the examples count. -/
def someCounts : Nat → StepResult := fun i => if i = 0 then ⟨3, 0, 0, 0⟩ else ⟨1, 2, 50, 50⟩

/-- The conversion to decimals of the examples: exact to the last place. -/
def floorMantissa : Mantissa := fun x => (x * 10 ^ 16).floor

theorem some_fits (i : Nat) (hi : i < 2) : FitStep floorMantissa someCounts i := by
  match i, hi with
  | 0, _ => exact ⟨by decide +kernel, by decide +kernel, by decide +kernel, by decide +kernel⟩
  | 1, _ => exact ⟨by decide +kernel, by decide +kernel, by decide +kernel, by decide +kernel⟩

/-- Two rows, of users without a city and of users whose city is the empty string. -/
def twoRows : List Found := [⟨0, [.str none], 5, [someCounts]⟩, ⟨0, [.str (some [])], 5, [someCounts]⟩]

theorem C139_violated (P : Printer) : ¬ C139_full P := by
  intro h
  have hm : ∀ x ∈ twoRows, x.parts = [someCounts] ∧ ∃ v, x.groups = [.str v] := by
    intro x hx
    simp only [twoRows, List.mem_cons, List.not_mem_nil, or_false] at hx
    rcases hx with rfl | rfl <;> exact ⟨rfl, _, rfl⟩
  obtain ⟨ans, hans, -, hs⟩ := h floorMantissa ["a".toList, "b".toList] twoRows
    (fun x hx => by
      rw [(hm x hx).1]
      exact ⟨by simp, fun b hb i hi => by rw [List.mem_singleton.mp hb]; exact some_fits i hi⟩)
    (fun x hx y hy => by
      obtain ⟨v, ev⟩ := (hm x hx).2
      obtain ⟨w, ew⟩ := (hm y hy).2
      refine ⟨by rw [ev, ew]; rfl, fun k s t hs ht => ?_⟩
      rw [ev] at hs
      rw [ew] at ht
      match k with
      | 0 => cases hs; cases ht; trivial
      | k + 1 => cases hs)
  obtain ⟨ds, hds, hl, hj⟩ := hs 0 _ rfl
  obtain ⟨d, hd, ht, hk⟩ := hj 0 _ rfl
  obtain ⟨d', hd', ht', -⟩ := hj 1 _ rfl
  obtain ⟨ans', hans', -, hs'⟩ := C139_partial P floorMantissa ["a".toList, "b".toList] twoRows
    (fun x hx => by
      rw [(hm x hx).1]
      exact ⟨by simp, fun b hb i hi => by rw [List.mem_singleton.mp hb]; exact some_fits i hi⟩)
    (fun x hx => by
      obtain ⟨v, ev⟩ := (hm x hx).2
      exact ⟨[v.getD []], by rw [ev]; rfl⟩)
  rw [hans] at hans'
  cases hans'
  obtain ⟨ds', hds', -, hj'⟩ := hs' 0 _ rfl
  rw [hds] at hds'
  cases hds'
  obtain ⟨a, la, ha, hla, ga, -⟩ := hj' 0 _ rfl
  obtain ⟨b, lb, hb, hlb, gb, -⟩ := hj' 1 _ rfl
  rw [hd] at ha
  rw [hd'] at hb
  cases ha
  cases hb
  have e : la = lb := Option.some.inj (hla.symm.trans hlb)
  have := (hk 1 _ _ rfl hd' (by rw [ga, gb, e]) (by rw [ht.ts, ht'.ts])).2.1
  cases this

/-- An answer: one of three converts, shown as 33.333 percent; the average of 50 ms is shown as 5000 (C86). -/
example : (funnelAnswer ⟨fun _ => [], fun _ => [], fun _ => [], fun _ => [], 0⟩ ["a".toList, "b".toList] (twoRows.map (Found.row floorMantissa 2))).map (fun a => a.map fun x =>
      x.2.map fun d => (d.total, d.ratio, d.avg, d.dropped)) =
    some [[(3, 100000, 0, 0), (3, 100000, 0, 0)], [(1, 33333, 5000000, 2), (1, 33333, 5000000, 2)]] := by
  decide +kernel

end OptiPrism.Platform
