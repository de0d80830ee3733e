import Verif.Query.PivotProps

/-! Property C87: unpivoting the aggregates and pivoting the dates of a result. -/

namespace OptiPrism.Query

variable {α β : Type} [DecidableEq α]

/-- A row of the unpivoted table as read by the pivot (event_segmentation.rs 631-697, pivot.rs
68-79): its name column is the date, its value column the value, every other column a group,
the name of the aggregate being the last of them. `str` is the cast of a date to a string (pivot.rs
253) and `lift` a string as a cell. -/
def toPivot (str : Option α → Name) (lift : Name → α) (date : Name) (fields : List Name)
    (u : URow α β) : PRow α β :=
  ⟨pick (fun f => !(f == date)) fields u.groups ++ [some (lift u.name)],
    str ((((fields.zip u.groups).find? fun x => x.1 == date).map Prod.snd).getD none), some u.value⟩

/-- The aggregates unpivoted, then pivoted over the dates `cols`. -/
def resultTable (B : Nat) (h : List (Option α) → Nat) (cast : α → Option β) (str : Option α → Name)
    (lift : Name → α) (date : Name) (aggs cols : List Name) (t : Tbl α) :
    Option (Except PErr (List (List (Option α) × List (Option β)))) :=
  (unpivot cast aggs t).map fun us => pivot B h cols
    (us.map (toPivot str lift date (t.fields.filter fun f => !aggs.contains f)))

/-- Specification: the breakdown cells of a row. -/
def restOf (date : Name) (aggs fields : List Name) (r : List (Option α)) : List (Option α) :=
  (fields.filter fun f => !(f == date) && !aggs.contains f).map (cellOf fields r)

omit [DecidableEq α] in
theorem find_cell (fields : List Name) (row : List (Option α)) (c : Name) :
    (((fields.zip row).find? fun x => x.1 == c).map Prod.snd).getD none = cellOf fields row c := by
  induction fields generalizing row with
  | nil => rfl
  | cons f fs ih =>
    cases row with
    | nil => rfl
    | cons v vs =>
      rw [List.zip_cons_cons, List.find?_cons]
      unfold cellOf
      by_cases h : f = c
      · have : (f == c) = true := by simpa using h
        simp only [this, if_pos h]; rfl
      · have : (f == c) = false := by simpa using h
        simp only [this, if_neg h]
        exact ih vs

omit [DecidableEq α] in
theorem cellOf_map (g : Name → Option α) (c : Name) : ∀ l : List Name, c ∈ l →
    cellOf l (l.map g) c = g c
  | [], h => by cases h
  | f :: fs, h => by
    show (if f = c then g f else cellOf fs (fs.map g) c) = g c
    by_cases hf : f = c
    · rw [if_pos hf, hf]
    · rw [if_neg hf]
      rcases List.mem_cons.mp h with e | e
      · exact absurd e.symm hf
      · exact cellOf_map g c fs e

/-- What the pivot reads for row `r` and aggregate `c`. -/
theorem toPivot_eq (str : Option α → Name) (lift : Name → α) (date : Name) (aggs fields : List Name)
    (hn : fields.Nodup) (hd : date ∈ fields) (hda : date ∉ aggs) (r : List (Option α)) (c : Name)
    (v : β) :
    toPivot str lift date (fields.filter fun f => !aggs.contains f)
      ⟨(fields.filter fun f => !aggs.contains f).map (cellOf fields r), c, v⟩ =
    ⟨restOf date aggs fields r ++ [some (lift c)], str (cellOf fields r date), some v⟩ := by
  have hm : date ∈ fields.filter fun f => !aggs.contains f := by
    rw [List.mem_filter]; exact ⟨hd, by simpa using hda⟩
  unfold toPivot
  dsimp only
  rw [find_cell, cellOf_map _ _ _ hm, pick_eq _ _ _ (hn.filter _) (by simp)]
  congr 2
  unfold restOf
  rw [List.filter_filter]
  refine List.map_congr_left ?_
  intro f hf
  refine cellOf_map _ _ _ ?_
  rw [List.mem_filter] at hf ⊢
  refine ⟨hf.1, ?_⟩
  have := hf.2
  rw [Bool.and_eq_true] at this
  exact this.2

theorem lastVal_table (str : Option α → Name) (lift : Name → α) (hlift : ∀ a b, lift a = lift b → a = b)
    (date : Name) (aggs fields : List Name) (ha : aggs.Nodup) (val : List (Option α) → Name → β)
    (k : List (Option α)) (c : Name) (hc : c ∈ aggs) (d : Name) : ∀ rows : List (List (Option α)),
    rows.Pairwise (fun a b => ¬(restOf date aggs fields a = restOf date aggs fields b ∧
      str (cellOf fields a date) = str (cellOf fields b date))) →
    lastVal (rows.flatMap fun r => aggs.map fun c => (⟨restOf date aggs fields r ++ [some (lift c)],
      str (cellOf fields r date), some (val r c)⟩ : PRow α β)) (k ++ [some (lift c)]) d =
    (rows.find? fun r => decide (restOf date aggs fields r = k ∧ str (cellOf fields r date) = d)).map
      fun r => val r c := by
  intro rows hp
  -- rows that do not match contribute nothing
  have miss : ∀ r : List (Option α), ¬(restOf date aggs fields r = k ∧ str (cellOf fields r date) = d) →
      ((aggs.map fun c => (⟨restOf date aggs fields r ++ [some (lift c)],
        str (cellOf fields r date), some (val r c)⟩ : PRow α β)).filter fun x =>
        decide (x.groups = k ++ [some (lift c)] ∧ x.name = d)) = [] := by
    intro r hr
    rw [List.filter_eq_nil_iff]
    intro x hx
    obtain ⟨c', -, rfl⟩ := List.mem_map.mp hx
    simp only [decide_eq_true_eq]
    rintro ⟨e1, e2⟩
    exact hr ⟨(List.append_inj' e1 rfl).1, e2⟩
  have one : ∀ r : List (Option α), (restOf date aggs fields r = k ∧ str (cellOf fields r date) = d) →
      ((aggs.map fun c => (⟨restOf date aggs fields r ++ [some (lift c)],
        str (cellOf fields r date), some (val r c)⟩ : PRow α β)).filter fun x =>
        decide (x.groups = k ++ [some (lift c)] ∧ x.name = d)) =
      [⟨k ++ [some (lift c)], d, some (val r c)⟩] := by
    rintro r ⟨e1, e2⟩
    rw [List.filter_map, e1, e2]
    have hcongr : (aggs.filter ((fun x : PRow α β => decide (x.groups = k ++ [some (lift c)] ∧ x.name = d)) ∘
        fun c => (⟨k ++ [some (lift c)], d, some (val r c)⟩ : PRow α β))) =
        aggs.filter fun x => x == c := by
      refine List.filter_congr ?_
      intro x _
      simp only [Function.comp]
      rw [Bool.eq_iff_iff]
      simp only [decide_eq_true_eq, and_true, beq_iff_eq]
      constructor
      · intro e
        have := (List.append_inj' e rfl).2
        simp only [List.cons.injEq, Option.some.injEq, and_true] at this
        exact hlift _ _ this
      · intro e; rw [e]
    rw [hcongr]
    have : (aggs.filter fun x => x == c) = [c] := by
      clear hp miss hcongr e1
      induction aggs with
      | nil => cases hc
      | cons a l ih =>
        rw [List.nodup_cons] at ha
        by_cases hac : a = c
        · subst hac
          rw [List.filter_cons_of_pos (by simp), List.filter_eq_nil_iff.mpr]
          intro x hx
          simp only [beq_iff_eq]
          intro e; rw [e] at hx; exact ha.1 hx
        · rw [List.filter_cons_of_neg (by simpa using hac)]
          rcases List.mem_cons.mp hc with e | e
          · exact absurd e.symm hac
          · exact ih ha.2 e
    rw [this]
    rfl
  unfold lastVal
  induction rows with
  | nil => rfl
  | cons r rows ih =>
    rw [List.pairwise_cons] at hp
    rw [List.flatMap_cons, List.filter_append, List.find?_cons]
    by_cases hr : restOf date aggs fields r = k ∧ str (cellOf fields r date) = d
    · rw [one r hr]
      have : (rows.flatMap fun r => aggs.map fun c => (⟨restOf date aggs fields r ++ [some (lift c)],
          str (cellOf fields r date), some (val r c)⟩ : PRow α β)).filter (fun x =>
          decide (x.groups = k ++ [some (lift c)] ∧ x.name = d)) = [] := by
        rw [List.filter_flatMap, List.flatMap_eq_nil_iff]
        intro r' hr'
        refine miss r' ?_
        rintro ⟨e1, e2⟩
        exact hp.1 r' hr' ⟨hr.1.trans e1.symm, hr.2.trans e2.symm⟩
      rw [this, decide_eq_true hr]
      rfl
    · rw [miss r hr, decide_eq_false hr]
      exact ih hp.2

/-- C87 (partial): if no two rows agree in date and breakdown cells, the result table shows for every
row's breakdown cells and every aggregate, under every date, the value of the row of that date, and
NULL if there is none. The limits are those of C62 and C63. -/
theorem C87_partial (B : Nat) (hB : 1 ≤ B) (h : List (Option α) → Nat) (cast : α → Option β)
    (str : Option α → Name) (lift : Name → α) (hlift : ∀ a b, lift a = lift b → a = b) (date : Name)
    (aggs cols : List Name) (t : Tbl α) (hn : t.fields.Nodup) (hs : aggs.Sublist t.fields)
    (hne : aggs ≠ []) (hd : date ∈ t.fields) (hda : date ∉ aggs)
    (hl : ∀ r ∈ t.rows, r.length = t.fields.length) (val : List (Option α) → Name → β)
    (hv : ∀ r ∈ t.rows, ∀ c ∈ aggs, (cellOf t.fields r c).bind cast = some (val r c))
    (huniq : t.rows.Pairwise fun a b => ¬(restOf date aggs t.fields a = restOf date aggs t.fields b ∧
      str (cellOf t.fields a date) = str (cellOf t.fields b date)))
    (hcol : ∀ r ∈ t.rows, str (cellOf t.fields r date) ∈ cols)
    (hinj : ∀ r ∈ t.rows, ∀ c ∈ aggs, ∀ r' ∈ t.rows, ∀ c' ∈ aggs,
      h (restOf date aggs t.fields r ++ [some (lift c)]) =
        h (restOf date aggs t.fields r' ++ [some (lift c')]) →
      restOf date aggs t.fields r ++ [some (lift c)] = restOf date aggs t.fields r' ++ [some (lift c')])
    (hsmall : ∃ ks : List (List (Option α)), ks.length ≤ 2 * B ∧
      ∀ r ∈ t.rows, ∀ c ∈ aggs, restOf date aggs t.fields r ++ [some (lift c)] ∈ ks) :
    ∃ out, resultTable B h cast str lift date aggs cols t = some (.ok out) ∧
      (∀ r ∈ t.rows, ∀ c ∈ aggs, (restOf date aggs t.fields r ++ [some (lift c)], cols.map fun d =>
        (t.rows.find? fun r' => decide (restOf date aggs t.fields r' = restOf date aggs t.fields r ∧
          str (cellOf t.fields r' date) = d)).map fun r' => val r' c) ∈ out) ∧
      (∀ o ∈ out, ∃ r ∈ t.rows, ∃ c ∈ aggs, o.1 = restOf date aggs t.fields r ++ [some (lift c)]) ∧
      (out.map Prod.fst).Nodup := by
  unfold resultTable
  rw [C62_partial cast aggs t hn hs hne hl val hv]
  have hrows : (t.rows.flatMap fun r => aggs.map fun c => (⟨(t.fields.filter fun f =>
      !aggs.contains f).map (cellOf t.fields r), c, val r c⟩ : URow α β)).map
      (toPivot str lift date (t.fields.filter fun f => !aggs.contains f)) =
      t.rows.flatMap fun r => aggs.map fun c => (⟨restOf date aggs t.fields r ++ [some (lift c)],
        str (cellOf t.fields r date), some (val r c)⟩ : PRow α β) := by
    rw [List.map_flatMap]
    congr 1
    funext r
    rw [List.map_map]
    refine List.map_congr_left ?_
    intro c _
    exact toPivot_eq str lift date aggs t.fields hn hd hda r c (val r c)
  rw [Option.map_some, hrows]
  generalize hP : (t.rows.flatMap fun r => aggs.map fun c =>
    (⟨restOf date aggs t.fields r ++ [some (lift c)],
      str (cellOf t.fields r date), some (val r c)⟩ : PRow α β)) = P
  have hkl : ∀ R : List (PRow α β), (firstKeys R).length ≤ R.length ∧ (firstKeys R).Nodup ∧
      ∀ k, k ∈ firstKeys R ↔ ∃ r ∈ R, r.groups = k := by
    intro R
    have gen : ∀ (R : List (PRow α β)) (acc : List (List (Option α))), acc.Nodup →
        (R.foldl (fun acc r => if r.groups ∈ acc then acc else acc ++ [r.groups]) acc).length ≤
          acc.length + R.length ∧
        (R.foldl (fun acc r => if r.groups ∈ acc then acc else acc ++ [r.groups]) acc).Nodup ∧
        ∀ k, k ∈ R.foldl (fun acc r => if r.groups ∈ acc then acc else acc ++ [r.groups]) acc ↔
          k ∈ acc ∨ ∃ r ∈ R, r.groups = k := by
      intro R
      induction R with
      | nil => intro acc ha; exact ⟨Nat.le_refl _, ha, fun k => by simp⟩
      | cons r R ih =>
        intro acc ha
        rw [List.foldl_cons]
        by_cases hm : r.groups ∈ acc
        · rw [if_pos hm]
          obtain ⟨i1, i2, i3⟩ := ih acc ha
          refine ⟨by rw [List.length_cons]; omega, i2, ?_⟩
          intro k
          rw [i3]
          constructor
          · rintro (h | ⟨x, hx, e⟩)
            · exact .inl h
            · exact .inr ⟨x, List.mem_cons_of_mem _ hx, e⟩
          · rintro (h | ⟨x, hx, e⟩)
            · exact .inl h
            · rcases List.mem_cons.mp hx with rfl | hx
              · exact .inl (e ▸ hm)
              · exact .inr ⟨x, hx, e⟩
        · rw [if_neg hm]
          have ha' : (acc ++ [r.groups]).Nodup := by
            rw [List.nodup_append]
            refine ⟨ha, by simp, ?_⟩
            intro a hx b hb e
            rw [List.mem_singleton] at hb
            rw [e, hb] at hx
            exact hm hx
          obtain ⟨i1, i2, i3⟩ := ih _ ha'
          refine ⟨by rw [List.length_append] at i1; simp at i1 ⊢; omega, i2, ?_⟩
          intro k
          rw [i3]
          simp only [List.mem_append, List.mem_cons, List.not_mem_nil, or_false]
          constructor
          · rintro ((h | h) | ⟨x, hx, e⟩)
            · exact .inl h
            · exact .inr ⟨r, .inl rfl, h.symm⟩
            · exact .inr ⟨x, .inr hx, e⟩
          · rintro (h | ⟨x, rfl | hx, e⟩)
            · exact .inl (.inl h)
            · exact .inl (.inr e.symm)
            · exact .inr ⟨x, hx, e⟩
    obtain ⟨g1, g2, g3⟩ := gen R [] List.nodup_nil
    refine ⟨?_, g2, fun k => ?_⟩
    · rw [List.length_nil, Nat.zero_add] at g1; exact g1
    · refine (g3 k).trans ⟨?_, .inr⟩
      rintro (e | e)
      · cases e
      · exact e
  obtain ⟨k1, k2, k3⟩ := hkl P
  have hfew : (firstKeys P).length ≤ 2 * B := by
    obtain ⟨ks, h1, h2⟩ := hsmall
    refine Nat.le_trans (k2.length_le_of_subset ?_) h1
    intro k hk
    obtain ⟨x, hx, e⟩ := (k3 k).mp hk
    rw [← hP, List.mem_flatMap] at hx
    obtain ⟨r, hr, hx⟩ := hx
    obtain ⟨c, hc, rfl⟩ := List.mem_map.mp hx
    exact e ▸ h2 r hr c hc
  rw [C63_partial B hB h cols P ?_ hfew ?_]
  · refine ⟨_, rfl, ?_, ?_, ?_⟩
    · intro r hr c hc
      rw [List.mem_map]
      refine ⟨restOf date aggs t.fields r ++ [some (lift c)], ?_, ?_⟩
      · rw [k3]
        refine ⟨⟨restOf date aggs t.fields r ++ [some (lift c)], str (cellOf t.fields r date),
          some (val r c)⟩, ?_, rfl⟩
        rw [← hP, List.mem_flatMap]
        exact ⟨r, hr, List.mem_map.mpr ⟨c, hc, rfl⟩⟩
      · congr 1
        refine List.map_congr_left ?_
        intro d _
        rw [← hP]
        exact lastVal_table str lift hlift date aggs t.fields (hs.nodup hn) val _ c hc d t.rows huniq
    · intro o ho
      obtain ⟨k, hk, rfl⟩ := List.mem_map.mp ho
      obtain ⟨x, hx, e⟩ := (k3 k).mp hk
      rw [← hP, List.mem_flatMap] at hx
      obtain ⟨r, hr, hx⟩ := hx
      obtain ⟨c, hc, rfl⟩ := List.mem_map.mp hx
      exact ⟨r, hr, c, hc, e.symm⟩
    · rw [List.map_map]
      show ((firstKeys P).map fun k => k).Nodup
      rw [List.map_id']
      exact k2
  · intro x hx y hy
    rw [← hP, List.mem_flatMap] at hx hy
    obtain ⟨r, hr, hx⟩ := hx
    obtain ⟨c, hc, rfl⟩ := List.mem_map.mp hx
    obtain ⟨r', hr', hy⟩ := hy
    obtain ⟨c', hc', rfl⟩ := List.mem_map.mp hy
    exact hinj r hr c hc r' hr' c' hc'
  · intro x hx
    rw [← hP, List.mem_flatMap] at hx
    obtain ⟨r, hr, hx⟩ := hx
    obtain ⟨c, hc, rfl⟩ := List.mem_map.mp hx
    exact hcol r hr

example : resultTable 4 (fun l : List (Option (List Char)) => l.flatMap (fun o => o.getD []) |>.length)
    some (fun o => o.getD []) id "t".toList ["n".toList] ["d1".toList, "d2".toList]
    ⟨["g".toList, "t".toList, "n".toList],
      [[some "a".toList, some "d1".toList, some "3".toList],
       [some "a".toList, some "d2".toList, some "4".toList],
       [some "bb".toList, some "d2".toList, some "5".toList]]⟩ =
    some (.ok [([some "a".toList, some "n".toList], [some "3".toList, some "4".toList]),
      ([some "bb".toList, some "n".toList], [none, some "5".toList])]) := rfl

/-- C87 without its limits is violated, each time for a table with one row for each breakdown and date: two breakdowns with the same hash share a row and
the value of one is lost; one breakdown more than the buffers are long for, first used in its column, panics (for buffers of any length see C63); aggregates
that are not in the order of the columns are shown under each other's names. -/
theorem C87_violated :
    resultTable 4 (fun _ => 0) some (fun o => o.getD []) id "t".toList ["n".toList] ["d".toList]
      ⟨["g".toList, "t".toList, "n".toList], [[some "a".toList, some "d".toList, some "3".toList], [some "b".toList, some "d".toList, some "4".toList]]⟩ =
      some (.ok [([some "a".toList, some "n".toList], [some "4".toList])]) ∧
    resultTable 1 (fun l : List (Option (List Char)) => l.flatMap (fun o => o.getD []) |>.length)
      some (fun o => o.getD []) id "t".toList ["n".toList] ["d".toList, "e".toList]
      ⟨["g".toList, "t".toList, "n".toList], [[some "a".toList, some "d".toList, some "3".toList], [some "bb".toList, some "d".toList, some "4".toList],
        [some "ccc".toList, some "e".toList, some "5".toList]]⟩ = some (.error .panic) ∧
    resultTable 4 (fun l : List (Option (List Char)) => l.flatMap (fun o => o.getD []) |>.length)
      some (fun o => o.getD []) id "t".toList ["mm".toList, "n".toList] ["d".toList]
      ⟨["t".toList, "n".toList, "mm".toList], [[some "d".toList, some "3".toList, some "4".toList]]⟩ =
      some (.ok [([some "mm".toList], [some "3".toList]), ([some "n".toList], [some "4".toList])]) := ⟨rfl, rfl, rfl⟩

end OptiPrism.Query

namespace OptiPrism.Query

/-- C88: names are replaced all at once: a listed name by its own replacement, whatever other entries
say about that replacement, every other name and NULL stay. -/
theorem C88_rename (rename : List (Name × Name)) (hn : (rename.map Prod.fst).Nodup) :
    (∀ a b, (a, b) ∈ rename → renameRow rename (some a) = some b) ∧
    (∀ a, (∀ b, (a, b) ∉ rename) → renameRow rename (some a) = some a) ∧
    renameRow rename none = none := by
  refine ⟨?_, ?_, rfl⟩
  · intro a b hab
    unfold renameRow
    dsimp only
    induction rename with
    | nil => cases hab
    | cons p ps ih =>
      rw [List.map_cons, List.nodup_cons] at hn
      rw [List.find?_cons]
      by_cases hp : p.1 = a
      · have : (p.1 == a) = true := by simpa using hp
        rw [this]
        dsimp only
        rcases List.mem_cons.mp hab with e | e
        · rw [← e]
        · exact absurd (List.mem_map.mpr ⟨_, e, hp.symm⟩) hn.1
      · have : (p.1 == a) = false := by simpa using hp
        rw [this]
        rcases List.mem_cons.mp hab with e | e
        · exact absurd (by rw [← e]) hp
        · exact ih hn.2 e
  · intro a ha
    unfold renameRow
    dsimp only
    rw [List.find?_eq_none.mpr]
    intro p hp e
    have e : p.1 = a := by simpa using e
    exact ha p.2 (by rw [← e]; exact hp)

example : renameRow [("a".toList, "b".toList), ("b".toList, "c".toList)] (some "a".toList) =
    some "b".toList := by decide

end OptiPrism.Query
