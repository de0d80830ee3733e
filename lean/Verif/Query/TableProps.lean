import Verif.Query.Table

/-! Properties C62 (unpivot), C64 (limit groups), C65 (merge). -/

namespace OptiPrism.Query

variable {α β : Type}

/-- Specification: the cell of a row under a field name. -/
def cellOf : List Name → List (Option α) → Name → Option α
  | f :: fs, v :: vs, c => if f = c then v else cellOf fs vs c
  | _, _, _ => none

theorem pick_eq (p : Name → Bool) : ∀ (fields : List Name) (row : List (Option α)), fields.Nodup →
    row.length = fields.length → pick p fields row = (fields.filter p).map (cellOf fields row)
  | [], [], _, _ => rfl
  | [], _ :: _, _, h => by simp at h
  | _ :: _, [], _, h => by simp at h
  | f :: fs, v :: vs, hn, hl => by
    rw [List.nodup_cons] at hn
    have ih := pick_eq p fs vs hn.2 (by simpa using hl)
    have e : (fs.filter p).map (cellOf (f :: fs) (v :: vs)) = (fs.filter p).map (cellOf fs vs) := by
      refine List.map_congr_left ?_
      intro x hx
      have hx := (List.mem_filter.mp hx).1
      show (if f = x then v else cellOf fs vs x) = _
      rw [if_neg (by intro e; rw [e] at hn; exact hn.1 hx)]
    have hp : pick p (f :: fs) (v :: vs) = (if p f then [v] else []) ++ pick p fs vs := by
      unfold pick
      rw [List.zip_cons_cons, List.filter_cons]
      dsimp only
      split <;> simp
    rw [hp, ih, List.filter_cons]
    split
    · rw [List.map_cons, e]
      show v :: _ = (if f = f then v else cellOf fs vs f) :: _
      rw [if_pos rfl]
      rfl
    · rw [e]; rfl

theorem filter_sublist_self {cols fields : List Name} (hn : fields.Nodup) (hs : cols.Sublist fields) :
    (fields.filter fun f => cols.contains f) = cols := by
  induction hs with
  | slnil => rfl
  | @cons l1 l2 a h ih =>
    rw [List.nodup_cons] at hn
    rw [List.filter_cons_of_neg]
    · exact ih hn.2
    · intro h'
      have : a ∈ l1 := by simpa using h'
      exact hn.1 (h.subset this)
  | @cons_cons l1 l2 a h ih =>
    rw [List.nodup_cons] at hn
    rw [List.filter_cons_of_pos (by simp)]
    congr 1
    rw [← ih hn.2]
    refine List.filter_congr ?_
    intro x hx
    have : x ≠ a := by intro e; rw [e] at hx; exact hn.1 hx
    rw [ih hn.2]
    simp [this]

theorem allSome_map {γ : Type} (f : γ → Option β) (g : γ → β) : ∀ l : List γ,
    (∀ x ∈ l, f x = some (g x)) → allSome (l.map f) = some (l.map g)
  | [], _ => rfl
  | x :: l, h => by
    rw [List.map_cons, h x (by simp)]
    show (allSome (l.map f)).map _ = _
    rw [allSome_map f g l fun y hy => h y (List.mem_cons_of_mem _ hy)]
    rfl

theorem allSome_append : ∀ a b : List (Option β), allSome (a ++ b) =
    (allSome a).bind fun x => (allSome b).map fun y => x ++ y
  | [], b => by
    show allSome b = (allSome b).map fun y => [] ++ y
    cases allSome b <;> rfl
  | none :: a, b => rfl
  | some v :: a, b => by
    show (allSome (a ++ b)).map _ = ((allSome a).map _).bind _
    rw [allSome_append a b]
    cases allSome a <;> cases allSome b <;> rfl

theorem zip3_map {γ : Type} (f : γ → List (Option α)) (n : γ → Name) (v : γ → β) : ∀ l : List γ,
    zip3 (l.map f) (l.map n) (l.map v) = some (l.map fun x => ⟨f x, n x, v x⟩)
  | [] => rfl
  | x :: l => by
    show (zip3 (l.map f) (l.map n) (l.map v)).map _ = _
    rw [zip3_map f n v l]; rfl

theorem zip3_append : ∀ (g1 : List (List (Option α))) (n1 : List Name) (v1 : List β) (o1 : List (URow α β))
    (g2 : List (List (Option α))) (n2 : List Name) (v2 : List β) (o2 : List (URow α β)),
    zip3 g1 n1 v1 = some o1 → zip3 g2 n2 v2 = some o2 →
    zip3 (g1 ++ g2) (n1 ++ n2) (v1 ++ v2) = some (o1 ++ o2)
  | [], [], [], o1, g2, n2, v2, o2, h1, h2 => by cases h1; exact h2
  | g :: gs, n :: ns, v :: vs, o1, g2, n2, v2, o2, h1, h2 => by
    have h1 : (zip3 gs ns vs).map (fun l => ⟨g, n, v⟩ :: l) = some o1 := h1
    cases h3 : zip3 gs ns vs with
    | none => rw [h3] at h1; cases h1
    | some o =>
      rw [h3] at h1
      cases h1
      show (zip3 (gs ++ g2) (ns ++ n2) (vs ++ v2)).map _ = _
      rw [zip3_append gs ns vs o g2 n2 v2 o2 h3 h2]
      rfl
  | [], [], _ :: _, _, _, _, _, _, h1, _ => by cases h1
  | [], _ :: _, _, _, _, _, _, _, h1, _ => by cases h1
  | _ :: _, [], _, _, _, _, _, _, h1, _ => by cases h1
  | _ :: _, _ :: _, [], _, _, _, _, _, h1, _ => by cases h1

/-- C62 (partial): if the columns are given in the order of the schema and hold no NULL, unpivoting
yields for every row and every column one row with the other cells, the name and the value. -/
theorem C62_partial (cast : α → Option β) (cols : List Name) (t : Tbl α) (hn : t.fields.Nodup)
    (hs : cols.Sublist t.fields) (hne : cols ≠ []) (hl : ∀ r ∈ t.rows, r.length = t.fields.length)
    (val : List (Option α) → Name → β)
    (hv : ∀ r ∈ t.rows, ∀ c ∈ cols, (cellOf t.fields r c).bind cast = some (val r c)) :
    unpivot cast cols t = some (t.rows.flatMap fun r => cols.map fun c =>
      ⟨(t.fields.filter fun f => !cols.contains f).map (cellOf t.fields r), c, val r c⟩) := by
  unfold unpivot
  have h0 : (t.fields.all fun f => !cols.contains f) = false := by
    cases cols with
    | nil => exact absurd rfl hne
    | cons c cs =>
      rw [List.all_eq_false]
      exact ⟨c, hs.subset (by simp), by simp⟩
  rw [h0, if_neg (by simp)]
  have main : ∀ rows : List (List (Option α)), (∀ r ∈ rows, r.length = t.fields.length) →
      (∀ r ∈ rows, ∀ c ∈ cols, (cellOf t.fields r c).bind cast = some (val r c)) →
      allSome (rows.flatMap fun r =>
        (pick (fun f => cols.contains f) t.fields r).map fun c => c.bind cast) =
        some (rows.flatMap fun r => cols.map (val r)) ∧
      zip3 (rows.flatMap fun r => cols.map fun _ => pick (fun f => !cols.contains f) t.fields r)
        (rows.flatMap fun _ => cols) (rows.flatMap fun r => cols.map (val r)) =
        some (rows.flatMap fun r => cols.map fun c =>
          ⟨(t.fields.filter fun f => !cols.contains f).map (cellOf t.fields r), c, val r c⟩) := by
    intro rows
    induction rows with
    | nil => intro _ _; exact ⟨rfl, rfl⟩
    | cons r rows ih =>
      intro h1 h2
      obtain ⟨i1, i2⟩ := ih (fun x hx => h1 x (List.mem_cons_of_mem _ hx))
        (fun x hx => h2 x (List.mem_cons_of_mem _ hx))
      constructor
      · rw [List.flatMap_cons, allSome_append, i1, pick_eq _ _ _ hn (h1 r (by simp)),
          filter_sublist_self hn hs, List.map_map]
        rw [allSome_map ((fun c : Option α => c.bind cast) ∘ cellOf t.fields r) (val r) cols
          (fun c hc => h2 r (by simp) c hc)]
        rfl
      · rw [List.flatMap_cons, List.flatMap_cons, List.flatMap_cons, List.flatMap_cons]
        refine zip3_append _ _ _ _ _ _ _ _ ?_ i2
        rw [pick_eq _ _ _ hn (h1 r (by simp))]
        have := zip3_map (fun _ => (t.fields.filter fun f => !cols.contains f).map (cellOf t.fields r))
          (fun c => c) (val r) cols
        rw [List.map_id'] at this
        exact this
  obtain ⟨m1, m2⟩ := main t.rows hl hv
  rw [m1]
  exact m2

/-- Two fields and one row. -/
def exTbl : Tbl Nat := ⟨["g".toList, "a".toList, "b".toList], [[some 7, some 1, some 2]]⟩

example : unpivot some ["a".toList, "b".toList] exTbl =
    some [⟨[some 7], "a".toList, 1⟩, ⟨[some 7], "b".toList, 2⟩] := by decide

/-- C62 is violated: in another order the values change their names, and a NULL value is an error. -/
theorem C62_violated :
    unpivot some ["b".toList, "a".toList] exTbl =
      some [⟨[some 7], "b".toList, 1⟩, ⟨[some 7], "a".toList, 2⟩] ∧
    cellOf exTbl.fields [some 7, some 1, some 2] "b".toList = some 2 ∧
    unpivot (some : Nat → Option Nat) ["a".toList] ⟨["a".toList], [[none]]⟩ = none := by decide

/-! ### Limit groups -/

section
variable [DecidableEq α]

/-- What a row does to the counters. -/
theorem limitRow_spec (limit : Nat) : ∀ (vs : List (Option α)) (j : Nat)
    (cn : Nat → Option α → Nat), (∀ i v, cn i v ≤ limit) →
    (∀ i v, (limitRow limit j vs cn).1 i v ≤ limit) ∧
    (∀ i v, cn i v ≤ (limitRow limit j vs cn).1 i v) ∧
    ((limitRow limit j vs cn).2 = true → ∀ i v, vs[i]? = some v →
      (limitRow limit j vs cn).1 (j + i) v = cn (j + i) v + 1)
  | [], j, cn, h => ⟨h, fun _ _ => Nat.le_refl _, fun _ i v hv => by simp at hv⟩
  | v :: vs, j, cn, h => by
    unfold limitRow
    by_cases hc : cn j v = limit
    · rw [if_pos hc]
      exact ⟨h, fun _ _ => Nat.le_refl _, fun e => by cases e⟩
    · rw [if_neg hc]
      have hlt : cn j v < limit := Nat.lt_of_le_of_ne (h j v) hc
      have h' : ∀ i w, (if i = j ∧ w = v then cn i w + 1 else cn i w) ≤ limit := by
        intro i w
        split
        next e => rw [e.1, e.2]; exact hlt
        next => exact h i w
      obtain ⟨i1, i2, i3⟩ := limitRow_spec limit vs (j + 1) _ h'
      have stay : ∀ (vs : List (Option α)) (m : Nat) (cn : Nat → Option α → Nat) i w, i < m →
          (limitRow limit m vs cn).1 i w = cn i w := by
        intro vs
        induction vs with
        | nil => intro m cn i w _; rfl
        | cons a vs ih =>
          intro m cn i w hi
          unfold limitRow
          split
          · rfl
          · rw [ih (m + 1) _ i w (by omega), if_neg (by omega)]
      refine ⟨i1, ?_, ?_⟩
      · intro i w
        refine Nat.le_trans ?_ (i2 i w)
        split <;> omega
      · intro hk i w hw
        cases i with
        | zero =>
          simp at hw
          subst hw
          show (limitRow limit (j + 1) vs _).1 j v = cn j v + 1
          rw [stay vs (j + 1) _ j v (by omega), if_pos ⟨rfl, rfl⟩]
        | succ i =>
          have := i3 hk i w (by simpa using hw)
          rw [show j + (i + 1) = j + 1 + i by omega, this, if_neg (by omega)]

theorem limitRows_bound {ρ : Type} (cells : ρ → List (Option α)) (limit : Nat) (j : Nat)
    (v : Option α) : ∀ (rows : List ρ) (cn : Nat → Option α → Nat), (∀ i v, cn i v ≤ limit) →
    ((limitRows cells limit cn rows).filter fun r => decide ((cells r)[j]? = some v)).length +
      cn j v ≤ limit ∧ (limitRows cells limit cn rows).Sublist rows
  | [], cn, h => by
    refine ⟨?_, List.Sublist.refl _⟩
    show 0 + cn j v ≤ limit
    rw [Nat.zero_add]; exact h j v
  | r :: rows, cn, h => by
    obtain ⟨h1, h2, h3⟩ := limitRow_spec limit (cells r) 0 cn h
    obtain ⟨i1, i2⟩ := limitRows_bound cells limit j v rows _ h1
    unfold limitRows
    dsimp only
    have hm := h2 j v
    split
    next hk =>
      refine ⟨?_, i2.cons_cons r⟩
      rw [List.filter_cons]
      split
      next hv =>
        have := h3 hk j v (by simpa using hv)
        rw [Nat.zero_add] at this
        rw [List.length_cons]
        omega
      next => omega
    next => exact ⟨by omega, i2.cons r⟩

/-- C64 (partial): of every batch some of the rows are kept in order, and at most `limit` of them
have the same value in the same column. -/
theorem C64_at_most_partial {ρ : Type} (groups : Nat) (h0 : 0 < groups)
    (cells : ρ → List (Option α)) (limit : Nat) (batch : List ρ) (j : Nat) (v : Option α) :
    ∃ out, limitGroups groups cells limit [batch] = [out] ∧ out.Sublist batch ∧
      (out.filter fun r => decide ((cells r)[j]? = some v)).length ≤ limit := by
  refine ⟨limitRows cells limit (fun _ _ => 0) batch, ?_, ?_⟩
  · unfold limitGroups
    rw [List.map_cons, if_neg (by omega)]; rfl
  · obtain ⟨h1, h2⟩ := limitRows_bound cells limit j v batch (fun _ _ => 0) (fun _ _ => Nat.zero_le _)
    exact ⟨h2, by omega⟩

/-- C64 (partial): with one breakdown column exactly the first `limit` rows of every value of a
batch are kept. -/
theorem C64_single_partial {ρ : Type} (cell : ρ → Option α) (limit : Nat) (batch : List ρ) :
    ∃ out, limitGroups 1 (fun r => [cell r]) limit [batch] = [out] ∧ out.Sublist batch ∧
      ∀ v, (out.filter fun r => decide (cell r = v)) =
        (batch.filter fun r => decide (cell r = v)).take limit := by
  refine ⟨limitRows (fun r => [cell r]) limit (fun _ _ => 0) batch, rfl, ?_, ?_⟩
  · exact (limitRows_bound (fun r => [cell r]) limit 0 none batch (fun _ _ => 0)
      (fun _ _ => Nat.zero_le _)).2
  · intro v
    have key : ∀ (rows : List ρ) (cn : Nat → Option α → Nat), (∀ i v, cn i v ≤ limit) →
        ((limitRows (fun r => [cell r]) limit cn rows).filter fun r => decide (cell r = v)) =
          (rows.filter fun r => decide (cell r = v)).take (limit - cn 0 v) := by
      intro rows
      induction rows with
      | nil => intro cn _; simp [limitRows]
      | cons r rows ih =>
        intro cn h
        unfold limitRows limitRow limitRow
        dsimp only
        by_cases hc : cn 0 (cell r) = limit
        · rw [if_pos hc]
          dsimp only
          rw [if_neg (by simp), ih cn h]
          by_cases hv : cell r = v
          · rw [← hv, hc, Nat.sub_self]; simp
          · rw [List.filter_cons_of_neg (a := r) (by simpa using hv)]
        · rw [if_neg hc]
          dsimp only
          rw [if_pos rfl]
          have hlt : cn 0 (cell r) < limit := Nat.lt_of_le_of_ne (h 0 (cell r)) hc
          have h' : ∀ i w, (if i = 0 ∧ w = cell r then cn i w + 1 else cn i w) ≤ limit := by
            intro i w
            split
            next e => rw [e.1, e.2]; exact hlt
            next => exact h i w
          have := ih _ h'
          by_cases hv : cell r = v
          · rw [List.filter_cons_of_pos (a := r) (by simpa using hv),
              List.filter_cons_of_pos (a := r) (by simpa using hv), this, if_pos ⟨rfl, hv.symm⟩]
            obtain ⟨m, hm⟩ : ∃ m, limit - cn 0 v = m + 1 := ⟨limit - cn 0 v - 1, by
              rw [← hv]; omega⟩
            rw [hm, List.take_succ_cons]
            congr 2
            omega
          · rw [List.filter_cons_of_neg (a := r) (by simpa using hv),
              List.filter_cons_of_neg (a := r) (by simpa using hv), this,
              if_neg (fun e => hv e.2.symm)]
    exact key batch (fun _ _ => 0) (fun _ _ => Nat.zero_le _)

end

example : limitGroups 1 (fun r : Nat × Nat => [some r.1]) 2 [[(1, 1), (1, 2), (2, 3), (1, 4)]] =
    [[(1, 1), (1, 2), (2, 3)]] := by decide

/-- C64 is violated: with two columns rows that are dropped use up the limit of their first value
(no row with value 2 is kept although only one was tried), and every batch starts anew. -/
theorem C64_violated :
    limitGroups 2 (fun r : Nat × Nat => [some r.1, some r.2]) 1 [[(1, 1), (2, 1), (2, 2)]] =
      [[(1, 1)]] ∧
    limitGroups 1 (fun r : Nat × Nat => [some r.1]) 1 [[(1, 1)], [(1, 2)]] = [[(1, 1)], [(1, 2)]] := by
  decide

/-! ### Merge -/

/-- Specification: the merged row. -/
def mergedRow (lift : Name → α) (col : Option Name) (label : Name) (fields : List Name)
    (schema : List Name) (row : List (Option α)) : List (Option α) :=
  (match col with
    | none => []
    | some _ => [some (lift label)]) ++ schema.map (cellOf fields row)

theorem idxOf?_cell (fields : List Name) (row : List (Option α)) (hl : row.length = fields.length)
    (f : Name) : (match fields.idxOf? f with
      | some j => (row[j]?).getD none
      | none => none) = cellOf fields row f ∧ ((fields.idxOf? f).isSome = true ↔ f ∈ fields) := by
  induction fields generalizing row with
  | nil => exact ⟨rfl, by simp⟩
  | cons g gs ih =>
    cases row with
    | nil => simp at hl
    | cons v vs =>
      obtain ⟨i1, i2⟩ := ih vs (by simpa using hl)
      rw [List.idxOf?_cons]
      by_cases hg : g = f
      · subst hg
        simp [cellOf]
      · have hb : (g == f) = false := by simpa using hg
        rw [hb]
        simp only [Bool.false_eq_true, if_false]
        refine ⟨?_, ?_⟩
        · show _ = if g = f then v else cellOf gs vs f
          rw [if_neg hg, ← i1]
          cases gs.idxOf? f <;> simp
        · rw [Option.isSome_map, i2, List.mem_cons]
          constructor
          · exact .inr
          · rintro (h | h)
            · exact absurd h.symm hg
            · exact h

theorem mergeCell_eq (lift : Name → α) (label : Option Name) (fields : List Name)
    (row : List (Option α)) (hl : row.length = fields.length) (idx : Nat) (f : Name) :
    mergeCell lift label fields row idx f =
      if f ∈ fields then cellOf fields row f
      else if idx = 0 then label.map lift else none := by
  obtain ⟨h1, h2⟩ := idxOf?_cell fields row hl f
  unfold mergeCell
  by_cases hf : f ∈ fields
  · rw [if_pos hf]
    have := h2.mpr hf
    cases hi : fields.idxOf? f with
    | none => rw [hi] at this; cases this
    | some j => rw [hi] at h1; exact h1
  · rw [if_neg hf]
    cases hi : fields.idxOf? f with
    | none => rfl
    | some j => exact absurd (h2.mp (by rw [hi]; rfl)) hf

theorem cellOf_absent : ∀ (fields : List Name) (row : List (Option α)) (f : Name), f ∉ fields →
    cellOf fields row f = none
  | [], _, _, _ => rfl
  | _ :: _, [], _, _ => rfl
  | g :: gs, v :: vs, f, h => by
    show (if g = f then v else cellOf gs vs f) = none
    rw [if_neg (by intro e; apply h; rw [e]; simp)]
    exact cellOf_absent gs vs f (fun hf => h (List.mem_cons_of_mem _ hf))

/-- A batch fits into a schema: columns that are not nullable are present without NULL. -/
structure Fits (schema : List (Name × Bool)) (b : Tbl α) : Prop where
  len : ∀ r ∈ b.rows, r.length = b.fields.length
  full : ∀ f ∈ schema, f.2 = false → f.1 ∈ b.fields ∧ ∀ r ∈ b.rows, (cellOf b.fields r f.1).isSome = true

theorem mapM_some {γ δ : Type} (f : γ → Option δ) (g : γ → δ) : ∀ l : List γ,
    (∀ x ∈ l, f x = some (g x)) → l.mapM f = some (l.map g)
  | [], _ => rfl
  | x :: l, h => by
    rw [List.mapM_cons, h x (by simp), mapM_some f g l fun y hy => h y (List.mem_cons_of_mem _ hy)]
    rfl

theorem map_zipIdx_const {γ δ : Type} (g : γ → δ) (f : γ × Nat → δ) : ∀ (l : List γ) (n : Nat),
    (∀ x ∈ l, ∀ i, n ≤ i → f (x, i) = g x) → (l.zipIdx n).map f = l.map g
  | [], _, _ => rfl
  | x :: l, n, h => by
    rw [List.zipIdx_cons, List.map_cons, List.map_cons, h x (by simp) n (Nat.le_refl _),
      map_zipIdx_const g f l (n + 1) fun y hy i hi => h y (List.mem_cons_of_mem _ hy) i (by omega)]

/-- A schema with the label column in front. -/
def withLabel (col : Option Name) (schema : List (Name × Bool)) : List (Name × Bool) :=
  match col with
  | none => schema
  | some c => (c, false) :: schema

theorem mergeBatch_eq (lift : Name → α) (col : Option Name) (label : Name)
    (schema : List (Name × Bool)) (b : Tbl α) (hf : Fits schema b)
    (hc : ∀ c, col = some c → c ∉ b.fields) :
    mergeBatch lift (withLabel col schema)
      (col.map fun _ => label) b =
      some (b.rows.map fun r => mergedRow lift col label b.fields (schema.map Prod.fst) r) := by
  have hcell : ∀ r ∈ b.rows, ∀ (idx : Nat) (f : Name × Bool),
      mergeCell lift none b.fields r idx f.1 = cellOf b.fields r f.1 := by
    intro r hr idx f
    rw [mergeCell_eq lift none b.fields r (hf.len r hr)]
    split
    · rfl
    next h =>
      rw [cellOf_absent _ _ _ h]
      split <;> rfl
  have hcell2 : ∀ r ∈ b.rows, ∀ (idx : Nat), 1 ≤ idx → ∀ (f : Name × Bool),
      mergeCell lift (some label) b.fields r idx f.1 = cellOf b.fields r f.1 := by
    intro r hr idx hi f
    rw [mergeCell_eq lift (some label) b.fields r (hf.len r hr)]
    split
    · rfl
    next h => rw [if_neg (by omega), cellOf_absent _ _ _ h]
  have hrow : ∀ r ∈ b.rows,
      ((withLabel col schema).zipIdx.map fun (f : (Name × Bool) × Nat) =>
        mergeCell lift (col.map fun _ => label) b.fields r f.2 f.1.1) =
      mergedRow lift col label b.fields (schema.map Prod.fst) r := by
    intro r hr
    unfold mergedRow
    rw [List.map_map]
    cases col with
    | none =>
      refine map_zipIdx_const (fun f : Name × Bool => cellOf b.fields r f.1) _ schema 0 ?_
      intro f _ i _
      exact hcell r hr i f
    | some c =>
      dsimp only [Option.map, withLabel]
      rw [List.zipIdx_cons, List.map_cons]
      dsimp only
      rw [mergeCell_eq lift (some label) b.fields r (hf.len r hr), if_neg (hc c rfl), if_pos rfl]
      rw [map_zipIdx_const (fun f : Name × Bool => cellOf b.fields r f.1) _ schema 1 ?_]
      · rfl
      · intro f _ i hi
        exact hcell2 r hr i hi f
  unfold mergeBatch
  dsimp only
  have hout : (b.rows.map fun r =>
      ((withLabel col schema).zipIdx.map fun (f : (Name × Bool) × Nat) =>
        mergeCell lift (col.map fun _ => label) b.fields r f.2 f.1.1)) =
      b.rows.map fun r => mergedRow lift col label b.fields (schema.map Prod.fst) r :=
    List.map_congr_left hrow
  rw [hout, if_neg]
  intro hany
  obtain ⟨o, ho, hox⟩ := List.any_eq_true.mp hany
  obtain ⟨r, hr, rfl⟩ := List.mem_map.mp ho
  obtain ⟨x, hxm, hxb⟩ := List.any_eq_true.mp hox
  have hx : x.1.2 = false ∧ x.2 = none := by
    simp only [Bool.and_eq_true, Bool.not_eq_true', Option.isNone_iff_eq_none] at hxb
    exact hxb
  have body : ∀ x ∈ schema.zip ((schema.map Prod.fst).map (cellOf b.fields r)),
      x.1.2 = false → x.2 = none → False := by
    intro x hxm h1 h2
    rw [List.map_map] at hxm
    have hz : ∀ l : List (Name × Bool), ∀ x ∈ l.zip (l.map (cellOf b.fields r ∘ Prod.fst)),
        x.1 ∈ l ∧ x.2 = cellOf b.fields r x.1.1 := by
      intro l
      induction l with
      | nil => intro x hx; cases hx
      | cons a l ih =>
        intro x hx
        rw [List.map_cons, List.zip_cons_cons, List.mem_cons] at hx
        rcases hx with rfl | hx
        · exact ⟨by simp, rfl⟩
        · exact ⟨List.mem_cons_of_mem _ (ih x hx).1, (ih x hx).2⟩
    obtain ⟨z1, z2⟩ := hz schema x hxm
    have := (hf.full x.1 z1 h1).2 r hr
    rw [← z2, h2] at this
    cases this
  cases col with
  | none => exact body x hxm hx.1 hx.2
  | some c =>
    unfold mergedRow at hxm
    dsimp only [withLabel] at hxm
    rw [List.cons_append, List.nil_append, List.zip_cons_cons, List.mem_cons] at hxm
    rcases hxm with rfl | hxm
    · cases hx.2
    · exact body x hxm hx.1 hx.2

/-- C65 (partial): merging streams yields their rows in order, labelled, with the cells of every
field of the merged schema, if the label column is not a column of a stream and columns missing in a
stream are nullable. -/
theorem C65_partial (lift : Name → α) (col : Option Name) (schemas : List (List (Name × Bool)))
    (streams : List (Name × List (Tbl α)))
    (hf : ∀ s ∈ streams, ∀ b ∈ s.2, Fits (mergeSchemas [] schemas) b)
    (hc : ∀ c, col = some c → ∀ s ∈ streams, ∀ b ∈ s.2, c ∉ b.fields) :
    mergeStreams lift (mergeSchema col schemas) (streams.map fun s => col.map fun _ => s.1)
      (streams.map Prod.snd) =
      some (streams.flatMap fun s => s.2.flatMap fun b => b.rows.map fun r =>
        mergedRow lift col s.1 b.fields ((mergeSchemas [] schemas).map Prod.fst) r) := by
  have e : mergeSchema col schemas = withLabel col (mergeSchemas [] schemas) := by
    cases col <;> rfl
  rw [e]
  induction streams with
  | nil => rfl
  | cons s ss ih =>
    rw [List.map_cons, List.map_cons]
    unfold mergeStreams
    rw [ih (fun x hx => hf x (List.mem_cons_of_mem _ hx))
      (fun c hc' x hx => hc c hc' x (List.mem_cons_of_mem _ hx))]
    rw [mapM_some _ (fun b : Tbl α => b.rows.map fun r =>
        mergedRow lift col s.1 b.fields ((mergeSchemas [] schemas).map Prod.fst) r) s.2
      (fun b hb => mergeBatch_eq lift col s.1 _ b (hf s (by simp) b hb)
        (fun c hc' => hc c hc' s (by simp) b hb))]
    rw [List.flatMap_cons]
    rfl

theorem nodup_fst {β : Type} {l : List (Name × β)} (h : (l.map Prod.fst).Nodup) {n : Name} {a b : β} (ha : (n, a) ∈ l) (hb : (n, b) ∈ l) : a = b := by
  induction l with
  | nil => cases ha
  | cons x l ih =>
    rw [List.map_cons, List.nodup_cons] at h
    rcases List.mem_cons.mp ha with e | ha <;> rcases List.mem_cons.mp hb with e' | hb
    · rw [← e'] at e; cases e; rfl
    · exact absurd (List.mem_map.mpr ⟨_, hb, by rw [← e]⟩) h.1
    · exact absurd (List.mem_map.mpr ⟨_, ha, by rw [← e']⟩) h.1
    · exact ih h.2 ha hb

/-- Adding the fields of one stream. -/
theorem addFields_spec (s : List (Name × Bool)) : ∀ (acc : List (Name × Bool)), (acc.map Prod.fst).Nodup →
    ((s.foldl (fun acc f => if acc.any fun g => g.1 == f.1 then acc.map fun g => if g.1 == f.1 then (g.1, g.2 || f.2) else g else acc ++ [f]) acc).map Prod.fst).Nodup ∧
    ∀ n b, (n, b) ∈ s.foldl (fun acc f => if acc.any fun g => g.1 == f.1 then acc.map fun g => if g.1 == f.1 then (g.1, g.2 || f.2) else g else acc ++ [f]) acc ↔
      (∃ c, (n, c) ∈ acc ++ s) ∧ (b = true ↔ (n, true) ∈ acc ++ s) := by
  induction s with
  | nil =>
    intro acc hnd
    refine ⟨hnd, fun n b => ?_⟩
    rw [List.foldl_nil, List.append_nil]
    constructor
    · intro h
      refine ⟨⟨b, h⟩, fun e => e ▸ h, fun h' => ?_⟩
      have := nodup_fst hnd h h'
      exact this
    · rintro ⟨⟨c, hc⟩, hb⟩
      cases b with
      | true => exact hb.mp rfl
      | false =>
        cases c with
        | false => exact hc
        | true => exact absurd (hb.mpr hc) (by simp)
  | cons f s ih =>
    intro acc hnd
    rw [List.foldl_cons]
    by_cases ha : acc.any (fun g => g.1 == f.1) = true
    · rw [if_pos ha]
      have hmap : (acc.map fun g => if g.1 == f.1 then (g.1, g.2 || f.2) else g).map Prod.fst = acc.map Prod.fst := by
        rw [List.map_map]
        apply List.map_congr_left
        intro g _
        show (if g.1 == f.1 then (g.1, g.2 || f.2) else g).1 = g.1
        split <;> rfl
      obtain ⟨h1, h2⟩ := ih _ (by rw [hmap]; exact hnd)
      refine ⟨h1, fun n b => ?_⟩
      rw [h2]
      have hex : (∃ c, (n, c) ∈ acc.map (fun g => if g.1 == f.1 then (g.1, g.2 || f.2) else g) ++ s) ↔ ∃ c, (n, c) ∈ acc ++ f :: s := by
        obtain ⟨g0, hg0, he0⟩ := List.any_eq_true.mp ha
        have he0 : g0.1 = f.1 := by simpa using he0
        have hm : (∃ c, (n, c) ∈ acc.map (fun g => if g.1 == f.1 then (g.1, g.2 || f.2) else g)) ↔ ∃ c, (n, c) ∈ acc := by
          have hx : ∀ l : List (Name × Bool), (∃ c, (n, c) ∈ l) ↔ n ∈ l.map Prod.fst := fun l => by simp
          rw [hx, hx, hmap]
        simp only [List.mem_append, exists_or, List.mem_cons, hm]
        constructor
        · rintro (h | h)
          · exact .inl h
          · exact .inr (.inr h)
        · rintro (h | ⟨c, h⟩ | h)
          · exact .inl h
          · refine .inl ⟨g0.2, ?_⟩
            have hn : n = g0.1 := by rw [he0, ← h]
            rw [hn]; exact hg0
          · exact .inr h
      have hby : (n, true) ∈ acc.map (fun g => if g.1 == f.1 then (g.1, g.2 || f.2) else g) ++ s ↔ (n, true) ∈ acc ++ f :: s := by
        obtain ⟨g0, hg0, he0⟩ := List.any_eq_true.mp ha
        have he0 : g0.1 = f.1 := by simpa using he0
        simp only [List.mem_append, List.mem_cons, List.mem_map]
        constructor
        · rintro (⟨g, hg, he⟩ | h)
          · by_cases hgf : (g.1 == f.1) = true
            · rw [if_pos hgf, Prod.mk.injEq] at he
              have hgf : g.1 = f.1 := by simpa using hgf
              rcases Bool.or_eq_true _ _ ▸ he.2 with h | h
              · left; rw [← he.1, ← h]; exact hg
              · right; left; rw [← he.1, hgf, ← h]
            · rw [if_neg hgf] at he
              exact .inl (he ▸ hg)
          · exact .inr (.inr h)
        · rintro (h | h | h)
          · left
            refine ⟨_, h, ?_⟩
            split <;> simp
          · left
            refine ⟨g0, hg0, ?_⟩
            rw [if_pos (by simpa using he0), he0, ← h]
            simp
          · exact .inr h
      rw [hex, hby]
    · rw [if_neg ha]
      have hnew : f.1 ∉ acc.map Prod.fst := by
        intro h
        obtain ⟨g, hg, he⟩ := List.mem_map.mp h
        exact ha (List.any_eq_true.mpr ⟨g, hg, by simpa using he⟩)
      obtain ⟨h1, h2⟩ := ih (acc ++ [f]) (by
        rw [List.map_append, List.nodup_append]
        refine ⟨hnd, by simp, fun a h1 b h2 e => ?_⟩
        simp at h2
        exact hnew (h2 ▸ e ▸ h1))
      refine ⟨h1, fun n b => ?_⟩
      rw [h2, List.append_assoc, List.singleton_append]

/-- C65: the merged schema has each field of each stream once, nullable if it is nullable in one of them. -/
theorem C65_schema (schemas : List (List (Name × Bool))) :
    ((mergeSchemas [] schemas).map Prod.fst).Nodup ∧
    ∀ n b, (n, b) ∈ mergeSchemas [] schemas ↔ (∃ s ∈ schemas, ∃ c, (n, c) ∈ s) ∧ (b = true ↔ ∃ s ∈ schemas, (n, true) ∈ s) := by
  have gen : ∀ acc, (acc.map Prod.fst).Nodup → ((mergeSchemas acc schemas).map Prod.fst).Nodup ∧
      ∀ n b, (n, b) ∈ mergeSchemas acc schemas ↔ (∃ c, (n, c) ∈ acc ++ schemas.flatten) ∧ (b = true ↔ (n, true) ∈ acc ++ schemas.flatten) := by
    induction schemas with
    | nil => intro acc h; simpa [mergeSchemas] using addFields_spec [] acc h
    | cons s ss ih =>
      intro acc h
      have h0 := addFields_spec s acc h
      obtain ⟨h1, h2⟩ := ih _ h0.1
      refine ⟨h1, fun n b => ?_⟩
      unfold mergeSchemas
      rw [h2, List.flatten_cons]
      have e1 : ∀ c, (n, c) ∈ (s.foldl (fun acc f => if acc.any fun g => g.1 == f.1 then acc.map fun g => if g.1 == f.1 then (g.1, g.2 || f.2) else g else acc ++ [f]) acc) ++ ss.flatten ↔
          ((∃ c, (n, c) ∈ acc ++ s) ∧ (c = true ↔ (n, true) ∈ acc ++ s)) ∨ (n, c) ∈ ss.flatten := fun c => by rw [List.mem_append, h0.2]
      simp only [e1]
      have e2 : (∃ c, ((∃ c, (n, c) ∈ acc ++ s) ∧ (c = true ↔ (n, true) ∈ acc ++ s)) ∨ (n, c) ∈ ss.flatten) ↔ ∃ c, (n, c) ∈ acc ++ (s ++ ss.flatten) := by
        simp only [exists_or, ← List.append_assoc, List.mem_append (t := ss.flatten)]
        apply or_congr _ Iff.rfl
        constructor
        · rintro ⟨c, h, -⟩; exact h
        · intro h
          by_cases ht : (n, true) ∈ acc ++ s
          · exact ⟨true, h, by simp [ht]⟩
          · exact ⟨false, h, by simp [ht]⟩
      have e3 : ((∃ c, (n, c) ∈ acc ++ s) ∧ (True ↔ (n, true) ∈ acc ++ s) ∨ (n, true) ∈ ss.flatten) ↔ (n, true) ∈ acc ++ (s ++ ss.flatten) := by
        rw [← List.append_assoc, List.mem_append (t := ss.flatten)]
        apply or_congr _ Iff.rfl
        constructor
        · rintro ⟨-, h⟩; exact h.mp trivial
        · intro h; exact ⟨⟨_, h⟩, by simp [h]⟩
      rw [e2, e3]
  have := gen [] (by simp)
  refine ⟨this.1, fun n b => ?_⟩
  rw [this.2]
  simp only [List.nil_append, List.mem_flatten]
  apply and_congr _ Iff.rfl
  constructor
  · rintro ⟨c, l, hl, hc⟩; exact ⟨l, hl, c, hc⟩
  · rintro ⟨l, hl, c, hc⟩; exact ⟨c, l, hl, hc⟩

example : mergeSchemas [] [[("a".toList, false), ("b".toList, true)], [("b".toList, false), ("c".toList, false), ("a".toList, true)]] =
    [("a".toList, true), ("b".toList, true), ("c".toList, false)] := by decide

example : mergeStreams (fun _ => 0) (mergeSchema (some "event".toList)
      [[("a".toList, true)], [("b".toList, true)]]) [some "x".toList, some "y".toList]
      [[⟨["a".toList], [[some 1]]⟩], [⟨["b".toList], [[some 2]]⟩]] =
    some [[some 0, some 1, none], [some 0, none, some 2]] := by decide

/-- C65 is violated: a stream's own column of that name replaces the label, and a column missing in
one stream but not nullable in another is an error. -/
theorem C65_violated :
    mergeStreams (fun _ => 0) (mergeSchema (some "event".toList) [[("event".toList, true)]])
      [some "x".toList] [[⟨["event".toList], [[some 5]]⟩]] = some [[some 5, some 5]] ∧
    mergeStreams (fun _ => 0) (mergeSchema none [[("a".toList, false)], [("b".toList, true)]])
      [none, none] [[⟨["a".toList], [[some 1]]⟩], [⟨["b".toList], [[some 2]]⟩]] = none := by decide

end OptiPrism.Query
