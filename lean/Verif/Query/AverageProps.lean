import Verif.Query.Average
import Verif.Query.TableProps

/-!
# C119: the averages of a chart and the order of its rows
-/

namespace OptiPrism.Query

variable {γ : Type}

/-- Spec: what `sort_to_indices` guarantees: every index once, the values descending. -/
def SortsDown (sortIdx : List Int → List Nat) : Prop :=
  ∀ l : List Int, (sortIdx l).Perm (List.range l.length) ∧ ((sortIdx l).map fun i => l[i]?.getD 0).Pairwise (· ≥ ·)

/-- Spec: `a` is the quotient of `s` by `n`, without its fraction. -/
def Quotient' (s : Int) (n : Nat) (a : Int) : Prop :=
  0 < n ∧ (0 ≤ s → a * n ≤ s ∧ s < (a + 1) * n) ∧ (s ≤ 0 → s ≤ a * n ∧ (a - 1) * n < s)

/-- Spec: the mean of the values there are, without its fraction. -/
def Mean (vals : List (Option Int)) (a : Int) : Prop :=
  Quotient' (vals.filterMap id).sum (vals.filterMap id).length a

/-- Spec: the mean if what is missing counts as zero. -/
def MeanZero (vals : List (Option Int)) (a : Int) : Prop :=
  Quotient' (vals.map fun v => v.getD 0).sum vals.length a

/-- Spec: the values of a row. -/
def valuesOf (num : γ → Int) (groups : Nat) (row : List (Option γ)) : List (Option Int) := (row.drop groups).map fun c => c.map num

/-- Spec: the table `out` has the rows of `rows`, each with its average behind the groups, in the order of the averages. -/
def Ranked (num : γ → Int) (dec : Int → γ) (groups : Nat) (M : List (Option Int) → Int → Prop) (rows out : List (List (Option γ))) : Prop :=
  ∃ l : List (List (Option γ) × Int), (l.map Prod.fst).Perm rows ∧ (∀ x ∈ l, M (valuesOf num groups x.1) x.2) ∧
    l.Pairwise (fun x y => x.2 ≥ y.2) ∧ out = l.map fun x => x.1.take groups ++ some (dec x.2) :: x.1.drop groups

/-- C119 as stated: the average of a row is that of the values it has. -/
def C119_full : Prop := ∀ (num dec : Int → Int) (sortIdx : List Int → List Nat) (groups : Nat) (rows : List (List (Option Int))),
  SortsDown sortIdx → (∀ r ∈ rows, valuesOf num groups r ≠ [] ∧ ∃ v ∈ valuesOf num groups r, v ≠ none) →
  ∃ out, averageAndSort num dec sortIdx groups rows = some out ∧ Ranked num dec groups Mean rows out

theorem quotient_tdiv (s : Int) {n : Nat} (hn : 0 < n) : Quotient' s n (s.tdiv n) := by
  have h := Int.mul_tdiv_add_tmod s n
  have hn' : (0 : Int) < n := by omega
  refine ⟨hn, fun h0 => ?_, fun h0 => ?_⟩
  · have h1 := Int.tmod_nonneg n h0
    have h2 := Int.tmod_lt_of_pos s hn'
    have e : (s.tdiv n + 1) * n = n * s.tdiv n + n := by rw [Int.add_mul, Int.mul_comm, Int.one_mul]
    have e' : s.tdiv n * n = n * s.tdiv n := Int.mul_comm _ _
    omega
  · have h1 : 0 ≤ (-s).tmod n := Int.tmod_nonneg n (by omega)
    have h2 : (-s).tmod n < n := Int.tmod_lt_of_pos (-s) hn'
    rw [Int.neg_tmod] at h1 h2
    have e : (s.tdiv n - 1) * n = n * s.tdiv n - n := by rw [Int.sub_mul, Int.mul_comm, Int.one_mul]
    have e' : s.tdiv n * n = n * s.tdiv n := Int.mul_comm _ _
    omega

theorem rowAverage_zero {num : γ → Int} {groups : Nat} {row : List (Option γ)} (h : valuesOf num groups row ≠ []) :
    ∃ a, rowAverage num groups row = some a ∧ MeanZero (valuesOf num groups row) a := by
  unfold rowAverage
  have h1 : (row.drop groups).length ≠ 0 := by
    intro e
    apply h
    unfold valuesOf
    rw [List.length_eq_zero_iff.mp e]; rfl
  refine ⟨_, by dsimp only; rw [if_neg h1], ?_⟩
  unfold MeanZero valuesOf
  rw [List.map_map, List.length_map]
  exact quotient_tdiv _ (by omega)

theorem allSome_iff {β : Type} : ∀ (l : List (Option β)) (r : List β), allSome l = some r ↔ l = r.map some := by
  intro l
  induction l with
  | nil => intro r; cases r <;> simp [allSome]
  | cons a l ih =>
    intro r
    cases a with
    | none => cases r <;> simp [allSome]
    | some b =>
      unfold allSome
      cases r with
      | nil => simp
      | cons c r =>
        simp only [List.map_cons, List.cons.injEq, Option.some.injEq]
        cases h : allSome l with
        | none =>
          simp only [Option.map_none, reduceCtorEq, false_iff, not_and]
          intro _ e
          rw [(ih r).mpr e] at h; cases h
        | some m =>
          simp only [Option.map_some, Option.some.injEq, List.cons.injEq]
          rw [(ih m).mp h]
          refine and_congr Iff.rfl ⟨fun e => by rw [e], fun e => ?_⟩
          exact List.map_inj_right (fun _ _ h => Option.some.inj h) |>.mp e

/-- C119 (partial): no row and no value is lost, and the rows are ranked by the mean that counts what is missing as zero. Missing: the mean of
the values that are there. -/
theorem C119_zero_partial {num : γ → Int} {dec : Int → γ} {sortIdx : List Int → List Nat} {groups : Nat} {rows : List (List (Option γ))}
    (hs : SortsDown sortIdx) (hv : ∀ r ∈ rows, valuesOf num groups r ≠ []) :
    ∃ out, averageAndSort num dec sortIdx groups rows = some out ∧ Ranked num dec groups MeanZero rows out := by
  -- the averages
  have havg : ∃ avgs : List Int, allSome (rows.map (rowAverage num groups)) = some avgs ∧ avgs.length = rows.length ∧
      ∀ x ∈ rows.zip avgs, MeanZero (valuesOf num groups x.1) x.2 := by
    clear hs
    induction rows with
    | nil => exact ⟨[], rfl, rfl, by simp⟩
    | cons r rows ih =>
      obtain ⟨a, h1, h2⟩ := rowAverage_zero (hv r (by simp))
      obtain ⟨as, h3, h4, h5⟩ := ih fun r hr => hv r (by simp [hr])
      refine ⟨a :: as, ?_, by simp [h4], ?_⟩
      · rw [List.map_cons, h1]
        unfold allSome
        rw [h3]; rfl
      · rw [List.zip_cons_cons]
        intro x hx
        rcases List.mem_cons.mp hx with rfl | hx
        · exact h2
        · exact h5 x hx
  obtain ⟨avgs, h1, hlen, h2⟩ := havg
  unfold averageAndSort
  rw [h1]
  dsimp only
  obtain ⟨hp, hd⟩ := hs avgs
  have hzl : (rows.zip avgs).length = avgs.length := by rw [List.length_zip, hlen]; omega
  have hin : ∀ i ∈ sortIdx avgs, i < (rows.zip avgs).length := by
    intro i hi
    rw [hzl]
    simpa using (hp.mem_iff.mp hi)
  -- the rows in the order of the indices
  have hlist : ∀ is : List Nat, (∀ i ∈ is, i < (rows.zip avgs).length) → ∃ l : List (List (Option γ) × Int),
      l.map some = is.map (fun i => (rows.zip avgs)[i]?) ∧ l.map Prod.snd = is.map (fun i => avgs[i]?.getD 0) := by
    intro is
    induction is with
    | nil => intro _; exact ⟨[], rfl, rfl⟩
    | cons i is ih =>
      intro hi
      obtain ⟨l, e1, e2⟩ := ih fun j hj => hi j (by simp [hj])
      have hlt := hi i (by simp)
      refine ⟨(rows.zip avgs)[i] :: l, by rw [List.map_cons, List.map_cons, e1, List.getElem?_eq_getElem hlt], ?_⟩
      rw [List.map_cons, List.map_cons, e2]
      have ha : i < avgs.length := by omega
      simp [List.getElem?_eq_getElem ha]
  obtain ⟨l, e1, e2⟩ := hlist _ hin
  have hperm : l.Perm (rows.zip avgs) := by
    have h3 : (l.map some).Perm ((rows.zip avgs).map some) := by
      rw [e1]
      refine (hp.map _).trans ?_
      rw [← hzl]
      have : (List.range (rows.zip avgs).length).map (fun i => (rows.zip avgs)[i]?) = (rows.zip avgs).map some := by
        apply List.ext_getElem?
        intro i
        rw [List.getElem?_map, List.getElem?_map]
        by_cases hi : i < (rows.zip avgs).length
        · rw [List.getElem?_range hi, List.getElem?_eq_getElem hi]; simp [List.getElem?_eq_getElem hi]
        · rw [List.getElem?_eq_none (by simpa using hi), List.getElem?_eq_none (by omega)]; rfl
      rw [this]
    have h4 := h3.filterMap id
    simpa [List.filterMap_map] using h4
  refine ⟨l.map fun x => x.1.take groups ++ some (dec x.2) :: x.1.drop groups, ?_, l, ?_, ?_, ?_, rfl⟩
  · rw [allSome_iff]
    have : ∀ is : List Nat, is.map (fun i => ((rows.zip avgs).map fun x => insertAverage dec groups x.1 x.2)[i]?) =
        (is.map fun i => (rows.zip avgs)[i]?).map (Option.map fun x => insertAverage dec groups x.1 x.2) := by
      intro is; rw [List.map_map]; congr 1; funext i; simp
    rw [this, ← e1, List.map_map, List.map_map]
    rfl
  · refine (hperm.map Prod.fst).trans ?_
    rw [List.map_fst_zip (by omega)]
  · intro x hx
    exact h2 x (hperm.mem_iff.mp hx)
  · rw [← e2, List.pairwise_map] at hd
    exact hd

/-- C119 (partial): with a value in every interval the rows are ranked by their mean. -/
theorem C119_partial {num : γ → Int} {dec : Int → γ} {sortIdx : List Int → List Nat} {groups : Nat} {rows : List (List (Option γ))}
    (hs : SortsDown sortIdx) (hv : ∀ r ∈ rows, valuesOf num groups r ≠ [] ∧ none ∉ valuesOf num groups r) :
    ∃ out, averageAndSort num dec sortIdx groups rows = some out ∧ Ranked num dec groups Mean rows out := by
  obtain ⟨out, h1, l, h2, h3, h4, h5⟩ := C119_zero_partial (dec := dec) hs fun r hr => (hv r hr).1
  refine ⟨out, h1, l, h2, fun x hx => ?_, h4, h5⟩
  have hn := (hv x.1 (h2.mem_iff.mp (List.mem_map_of_mem hx))).2
  have := h3 x hx
  unfold Mean
  unfold MeanZero at this
  generalize valuesOf num groups x.1 = vals at *
  have e : vals.filterMap id = vals.map fun v => v.getD 0 := by
    clear this
    induction vals with
    | nil => rfl
    | cons v vals ih =>
      cases v with
      | none => simp at hn
      | some v => simp [ih (by simpa using hn)]
  rw [e, List.length_map]
  exact this

/-- Without an interval there is no average: the division panics. -/
theorem C119_panic {num : γ → Int} {dec : Int → γ} {sortIdx : List Int → List Nat} {groups : Nat} {rows : List (List (Option γ))}
    {r : List (Option γ)} (hr : r ∈ rows) (h : r.length ≤ groups) : averageAndSort num dec sortIdx groups rows = none := by
  unfold averageAndSort
  have : allSome (rows.map (rowAverage num groups)) = none := by
    cases e : allSome (rows.map (rowAverage num groups)) with
    | none => rfl
    | some as =>
      rw [allSome_iff] at e
      have h1 : rowAverage num groups r ∈ as.map some := e ▸ List.mem_map_of_mem hr
      obtain ⟨a, -, h2⟩ := List.mem_map.mp h1
      unfold rowAverage at h2
      rw [List.drop_eq_nil_of_le h] at h2
      simp at h2
  rw [this]

/-- With one breakdown the limit keeps, of the rows of a value, those with the largest averages. -/
theorem C119_limit {num : γ → Int} {dec : Int → γ} {sortIdx : List Int → List Nat} {groups : Nat} {rows : List (List (Option γ))}
    [DecidableEq γ] (hs : SortsDown sortIdx) (hv : ∀ r ∈ rows, valuesOf num groups r ≠ []) (hg : ∀ r ∈ rows, groups ≤ r.length)
    (hdec : ∀ a b, dec a = dec b → a = b) (cell : List (Option γ) → Option γ) (limit : Nat) :
    ∃ out kept, averageAndSort num dec sortIdx groups rows = some out ∧ limitGroups 1 (fun r => [cell r]) limit [out] = [kept] ∧
      kept.Sublist out ∧ ∀ v, ∃ top rest, (out.filter fun r => decide (cell r = v)) = top ++ rest ∧
        (kept.filter fun r => decide (cell r = v)) = top ∧ (rest ≠ [] → top.length = limit) ∧
        ∀ x ∈ top, ∀ y ∈ rest, ∀ a b, x[groups]? = some (some (dec a)) → y[groups]? = some (some (dec b)) → a ≥ b := by
  obtain ⟨out, h1, l, h2, -, h4, h5⟩ := C119_zero_partial (dec := dec) hs hv
  obtain ⟨kept, k1, k2, k3⟩ := C64_single_partial cell limit out
  refine ⟨out, kept, h1, k1, k2, fun v => ⟨_, _, (List.take_append_drop limit _).symm, k3 v, fun hne => ?_, ?_⟩⟩
  · rw [List.length_take]
    have : ¬ (List.filter (fun r => decide (cell r = v)) out).length ≤ limit := fun hle => hne (List.drop_eq_nil_of_le hle)
    omega
  · have hp : out.Pairwise fun x y => ∀ a b, x[groups]? = some (some (dec a)) → y[groups]? = some (some (dec b)) → a ≥ b := by
      rw [h5, List.pairwise_map]
      refine h4.imp_of_mem fun {x y} hx hy hxy a b ha hb => ?_
      have get : ∀ z ∈ l, ∀ c, (z.1.take groups ++ some (dec z.2) :: z.1.drop groups)[groups]? = some (some (dec c)) → z.2 = c := by
        intro z hz c hc
        have hlen : (z.1.take groups).length = groups := by
          rw [List.length_take]
          have := hg z.1 (h2.mem_iff.mp (List.mem_map_of_mem hz))
          omega
        rw [List.getElem?_append_right (by omega), hlen] at hc
        exact hdec _ _ (by simpa using hc)
      rw [← get x hx a ha, ← get y hy b hb]
      exact hxy
    have hp' := (hp.filter fun r => decide (cell r = v))
    rw [← List.take_append_drop limit (List.filter (fun r => decide (cell r = v)) out), List.pairwise_append] at hp'
    exact hp'.2.2

/-- An order for the example: the larger of two values first. -/
def exSort (l : List Int) : List Nat := isort (fun i j => l[i]?.getD 0 ≥ l[j]?.getD 0) (List.range l.length)

theorem exSort_sorts : SortsDown exSort := by
  intro l
  refine ⟨isort_perm _ _, ?_⟩
  rw [List.pairwise_map]
  refine (isort_sorted _ (fun a b => ?_) (fun a b c h1 h2 => ?_) _).imp fun h => by simpa using h
  · simp only [decide_eq_true_eq]; omega
  · simp only [decide_eq_true_eq] at *; omega

/-- Two values, the first seen in one of two intervals only. -/
def exRanks : List (List (Option Int)) := [[some 1, some 10, none], [some 2, some 6, some 6]]

/-- The value with ten events in its only interval is given the average 5 and comes after that with six events in each. -/
theorem C119_violated : ¬ C119_full ∧ averageAndSort id id exSort 1 exRanks = some [[some 2, some 6, some 6, some 6], [some 1, some 5, some 10, none]] := by
  have h0 : averageAndSort id id exSort 1 exRanks = some [[some 2, some 6, some 6, some 6], [some 1, some 5, some 10, none]] := by decide +kernel
  refine ⟨fun h => ?_, h0⟩
  obtain ⟨out, h1, l, h2, h3, -, h5⟩ := h id id exSort 1 exRanks exSort_sorts (by decide)
  rw [h0] at h1
  injection h1 with h1
  subst h1
  have h6 : [some 1, some 5, some 10, none] ∈ l.map fun x => x.1.take 1 ++ some (id x.2) :: x.1.drop 1 := by rw [← h5]; simp
  obtain ⟨x, hx, he⟩ := List.mem_map.mp h6
  have hm := h3 x hx
  have hr : x.1 ∈ exRanks := h2.mem_iff.mp (List.mem_map_of_mem hx)
  rcases List.mem_cons.mp hr with e | hr
  · rw [e] at he hm
    have h7 : x.2 = 5 := by simpa using he
    rw [h7] at hm
    have := (hm.2.1 (by decide)).2
    revert this
    decide
  · rw [List.mem_singleton.mp hr] at he
    simp at he

/-- The hypotheses of `C119_partial` and `C119_limit` are met by a table with a value in every interval. -/
example : SortsDown exSort ∧ (∀ r ∈ [[some 1, some 3, some 4], [some 2, some 6, some 6]], valuesOf (id : Int → Int) 1 r ≠ [] ∧ none ∉ valuesOf id 1 r ∧ 1 ≤ r.length) ∧
    averageAndSort id id exSort 1 [[some 1, some 3, some 4], [some 2, some 6, some 6]] = some [[some 2, some 6, some 6, some 6], [some 1, some 3, some 3, some 4]] :=
  ⟨exSort_sorts, by decide, by decide +kernel⟩

end OptiPrism.Query
