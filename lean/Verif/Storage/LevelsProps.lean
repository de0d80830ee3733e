import Verif.Storage.CompactProps

/-!
# C113: the ranges of the parts of a level
-/

namespace OptiPrism.Storage

variable {R K : Type} {sort : List R → List R}

/-! ## Specification -/

/-- Two parts hold separate ranges: one ends where the other begins, or before; or one of them has a single key. -/
def Apart (le : K → K → Prop) (x y : PartRef K) : Prop := le x.max y.min ∨ le y.max x.min ∨ le x.max x.min ∨ le y.max y.min

/-- From level 1 on, the parts of a level are apart. -/
def LevelsApart (le : K → K → Prop) (ls : List (DLevel K)) : Prop := ∀ k lv, ls[k]? = some lv → 1 ≤ k → lv.parts.Pairwise (Apart le)

/-- What is required of the merger in addition to `IsMerge`: the outputs follow each other, and the ends of their ranges are keys. -/
def InOrder (le : K → K → Prop) (key : R → K) (merge : List (List R) → Option (List (MOut R K))) : Prop :=
  ∀ ins outs, (∀ b ∈ ins, SortedBy le key b) → merge ins = some outs → outs.Pairwise (fun x y => le x.max y.min) ∧
    ∀ x ∈ outs, (∃ r ∈ ins.flatten, key r = x.min) ∧ ∃ r ∈ ins.flatten, key r = x.max

/-! ## The choice of parts -/

section order
variable {le : K → K → Prop} [DecidableRel le] (hto : TotOrd le)
include hto

theorem minK_le (a b : K) : le (minK le a b) a ∧ le (minK le a b) b := by
  unfold minK
  split
  · rename_i h; exact ⟨hto.refl a, h⟩
  · rename_i h; exact ⟨(hto.total a b).resolve_left h, hto.refl b⟩

theorem le_maxK (a b : K) : le a (maxK le a b) ∧ le b (maxK le a b) := by
  unfold maxK
  split
  · rename_i h; exact ⟨h, hto.refl b⟩
  · rename_i h; exact ⟨hto.refl a, (hto.total a b).resolve_left h⟩

omit hto in
theorem minK_or (a b : K) : minK le a b = a ∨ minK le a b = b := by unfold minK; split <;> simp

omit hto in
theorem maxK_or (a b : K) : maxK le a b = a ∨ maxK le a b = b := by unfold maxK; split <;> simp

theorem foldl_minK (qs : List (PartRef K)) : ∀ m, le (qs.foldl (fun m q => minK le m q.min) m) m ∧ ∀ q ∈ qs, le (qs.foldl (fun m q => minK le m q.min) m) q.min := by
  induction qs with
  | nil => intro m; exact ⟨hto.refl m, fun _ h => by cases h⟩
  | cons q qs ih =>
    intro m
    obtain ⟨h1, h2⟩ := ih (minK le m q.min)
    have h3 := minK_le hto m q.min
    refine ⟨hto.trans h1 h3.1, fun x hx => ?_⟩
    rcases List.mem_cons.mp hx with rfl | hx
    · exact hto.trans h1 h3.2
    · exact h2 x hx

theorem foldl_maxK (qs : List (PartRef K)) : ∀ m, le m (qs.foldl (fun m q => maxK le m q.max) m) ∧ ∀ q ∈ qs, le q.max (qs.foldl (fun m q => maxK le m q.max) m) := by
  induction qs with
  | nil => intro m; exact ⟨hto.refl m, fun _ h => by cases h⟩
  | cons q qs ih =>
    intro m
    obtain ⟨h1, h2⟩ := ih (maxK le m q.max)
    have h3 := le_maxK hto m q.max
    refine ⟨hto.trans h3.1 h1, fun x hx => ?_⟩
    rcases List.mem_cons.mp hx with rfl | hx
    · exact hto.trans h3.2 h1
    · exact h2 x hx

/-- The range chosen contains the parts chosen; of the next level those parts are chosen which overlap it. -/
theorem determine_range {o : CompOpts} {lvl : Nat} {a b : DLevel K} {tcs : List (Nat × Nat)} (h : determine le o lvl a b = some tcs) :
    ∃ mn mx, (∀ i, (lvl, i) ∈ tcs → ∃ q ∈ a.parts, q.id = i ∧ le mn q.min ∧ le q.max mx) ∧ (∀ p ∈ tcs, p.1 = lvl ∨ p.1 = lvl + 1) ∧
      (∀ z ∈ b.parts, (lvl + 1, z.id) ∉ tcs → le z.max z.min ∨ le z.max mn ∨ le mx z.min ∨ le mx mn) ∧
      ∀ i, (lvl + 1, i) ∈ tcs → ∃ z ∈ b.parts, z.id = i ∧ ¬ le z.max z.min ∧ ¬ le z.max mn ∧ ¬ le mx z.min ∧ ¬ le mx mn := by
  unfold determine at h
  change (match (chosenIds o lvl a).filterMap fun i => a.parts.find? (fun q => q.id == i) with
    | [] => none
    | q :: qs => some ((chosenIds o lvl a).map (fun i => (lvl, i)) ++
      (b.parts.filter fun x => decide (¬ le (minK le x.max (qs.foldl (fun m q => maxK le m q.max) q.max))
        (maxK le x.min (qs.foldl (fun m q => minK le m q.min) q.min)))).map
        fun q => (lvl + 1, q.id))) = some tcs at h
  split at h
  · cases h
  · rename_i q qs hq
    injection h with h
    subst h
    have hmn := foldl_minK hto qs q.min
    have hmx := foldl_maxK hto qs q.max
    generalize qs.foldl (fun m q => minK le m q.min) q.min = mn at *
    generalize qs.foldl (fun m q => maxK le m q.max) q.max = mx at *
    refine ⟨mn, mx, ?_, ?_, ?_, ?_⟩
    · intro i hi
      rcases List.mem_append.mp hi with hi | hi
      · obtain ⟨j, hj, e⟩ := List.mem_map.mp hi
        cases e
        obtain ⟨q0, hq0, hid⟩ := List.mem_map.mp (chosenIds_sub o lvl a i hj)
        cases hf : a.parts.find? (fun q => q.id == i) with
        | none => exact absurd (by simpa using hid) (List.find?_eq_none.mp hf q0 hq0)
        | some q1 =>
          have hm : q1 ∈ q :: qs := by rw [← hq]; exact List.mem_filterMap.mpr ⟨i, hj, hf⟩
          refine ⟨q1, List.mem_of_find?_eq_some hf, by simpa using List.find?_some hf, ?_⟩
          rcases List.mem_cons.mp hm with rfl | hm
          · exact ⟨hmn.1, hmx.1⟩
          · exact ⟨hmn.2 _ hm, hmx.2 _ hm⟩
      · obtain ⟨_, _, e⟩ := List.mem_map.mp hi
        have := congrArg Prod.fst e
        simp at this
    · intro p hp
      rcases List.mem_append.mp hp with hp | hp <;> obtain ⟨_, _, e⟩ := List.mem_map.mp hp
      · exact .inl (by rw [← e])
      · exact .inr (by rw [← e])
    · intro z hz hn
      have : le (minK le z.max mx) (maxK le z.min mn) := by
        apply Decidable.byContradiction
        intro hno
        exact hn (List.mem_append.mpr (.inr (List.mem_map.mpr ⟨z, List.mem_filter.mpr ⟨hz, by simpa using hno⟩, rfl⟩)))
      rcases minK_or (le := le) z.max mx with e1 | e1 <;> rcases maxK_or (le := le) z.min mn with e2 | e2 <;> rw [e1, e2] at this
      · exact .inl this
      · exact .inr (.inl this)
      · exact .inr (.inr (.inl this))
      · exact .inr (.inr (.inr this))
    · intro i hi
      rcases List.mem_append.mp hi with hi | hi
      · obtain ⟨_, _, e⟩ := List.mem_map.mp hi
        have := congrArg Prod.fst e
        simp at this
      · obtain ⟨z, hz, e⟩ := List.mem_map.mp hi
        obtain ⟨hz, hno⟩ := List.mem_filter.mp hz
        have hno : ¬ le (minK le z.max mx) (maxK le z.min mn) := by simpa using hno
        have h1 := minK_le hto z.max mx
        have h2 := le_maxK hto z.min mn
        refine ⟨z, hz, by simpa using e, fun h => hno ?_, fun h => hno ?_, fun h => hno ?_, fun h => hno ?_⟩
        · exact hto.trans h1.1 (hto.trans h h2.1)
        · exact hto.trans h1.1 (hto.trans h h2.2)
        · exact hto.trans h1.2 (hto.trans h h2.1)
        · exact hto.trans h1.2 (hto.trans h h2.2)

end order

/-! ## One step -/

/-- The levels after the outputs of a merge have been recorded. -/
theorem addOuts_levels {k : Nat} (outs : List (MOut R K)) : ∀ (st : CState R K) (b : DLevel K), st.levels[k]? = some b →
    ∃ ps n, (outs.foldl (addOut k) st).levels[k]? = some ⟨n, b.parts ++ ps⟩ ∧ ps.map (fun q => (q.min, q.max)) = outs.map (fun x => (x.min, x.max)) ∧
      ∀ j, j ≠ k → (outs.foldl (addOut k) st).levels[j]? = st.levels[j]? := by
  induction outs with
  | nil => intro st b hb; exact ⟨[], b.partId, by simpa using hb, rfl, fun _ _ => rfl⟩
  | cons x outs ih =>
    intro st b hb
    rw [List.foldl_cons]
    have h1 : (addOut k st x).levels[k]? = some (pushPart ⟨b.partId + 1, x.size, x.values, x.min, x.max⟩ b) := by
      unfold addOut
      rw [hb]
      simp [List.getElem?_modify, hb]
    obtain ⟨ps, n, e1, e2, e3⟩ := ih _ _ h1
    refine ⟨⟨b.partId + 1, x.size, x.values, x.min, x.max⟩ :: ps, n, by rw [e1]; simp [pushPart], by simp [e2], fun j hj => ?_⟩
    rw [e3 j hj]
    unfold addOut
    rw [hb]
    simp [List.getElem?_modify, Ne.symm hj]

/-- The rows read for a merge are those of the parts chosen. -/
theorem ins_eq {le : K → K → Prop} {key : R → K} {G : Nat × Nat → List R} {S : List (Nat × Nat)} {st : CState R K} (h : CInv le key G S st) :
    ∀ (l : List (Nat × Nat)) (r : List (List R)), (∀ p ∈ l, p ∈ S) → l.mapM (fun tc => fileRows st.files tc.1 tc.2) = some r → r = l.map G := by
  intro l
  induction l with
  | nil => intro r _ hr; simpa using hr.symm
  | cons p l ih =>
    intro r hl hr
    rw [List.mapM_cons] at hr
    cases hp : fileRows st.files p.1 p.2 with
    | none => rw [hp] at hr; simp at hr
    | some x =>
      rw [hp] at hr
      cases hr' : l.mapM (fun tc => fileRows st.files tc.1 tc.2) with
      | none => rw [hr'] at hr; simp at hr
      | some y =>
        rw [hr'] at hr
        simp at hr
        subst hr
        rw [ih y (fun p hp => hl p (by simp [hp])) hr', List.map_cons]
        congr 1
        unfold fileRows at hp
        cases hf : st.files p.1 p.2 with
        | none => rw [hf] at hp; simp at hp
        | some v =>
          have := h.cons p (hl p (by simp)) v hf
          subst this
          rw [hf] at hp
          simpa using hp.symm

theorem Apart.symm {le : K → K → Prop} {x y : PartRef K} (h : Apart le x y) : Apart le y x := by
  rcases h with h | h | h | h
  · exact .inr (.inl h)
  · exact .inl h
  · exact .inr (.inr (.inr h))
  · exact .inr (.inr (.inl h))

theorem pairwise_two {α : Type} {P : α → α → Prop} (hs : ∀ {x y}, P x y → P y x) {l : List α} (h : l.Pairwise P) {x y : α} (hx : x ∈ l) (hy : y ∈ l) : x = y ∨ P x y := by
  induction l with
  | nil => cases hx
  | cons a l ih =>
    rw [List.pairwise_cons] at h
    rcases List.mem_cons.mp hx with ex | hx' <;> rcases List.mem_cons.mp hy with ey | hy'
    · exact .inl (ex.trans ey.symm)
    · exact .inr (ex ▸ h.1 _ hy')
    · exact .inr (hs (ey ▸ h.1 _ hx'))
    · exact ih h.2 hx' hy'

theorem id_inj {le : K → K → Prop} {key : R → K} {G : Nat × Nat → List R} {S : List (Nat × Nat)} {st : CState R K} (h : CInv le key G S st) {k : Nat} {lv : DLevel K}
    (hk : st.levels[k]? = some lv) {x y : PartRef K} (hx : x ∈ lv.parts) (hy : y ∈ lv.parts) (e : x.id = y.id) : x = y := by
  have := nodup_of_paths h.nd k lv hk
  have h2 : lv.parts.Pairwise (fun a b => a.id ≠ b.id) := List.pairwise_map.mp this
  rcases pairwise_two (fun h => Ne.symm h) h2 hx hy with e' | e'
  · exact e'
  · exact absurd e e'

theorem mergeStep_apart {le : K → K → Prop} [DecidableRel le] (hto : TotOrd le) {key : R → K} {merge : List (List R) → Option (List (MOut R K))}
    (hm : InOrder le key merge) {G : Nat × Nat → List R} {st st' : CState R K} {o : CompOpts} {lvl : Nat} {a b : DLevel K}
    {tcs : List (Nat × Nat)} (h : CInv le key G (pathsOf 0 st.levels) st) (ha : st.levels[lvl]? = some a) (hb : st.levels[lvl + 1]? = some b)
    (hdet : determine le o lvl a b = some tcs) (hl : LevelsApart le st.levels) (hs : mergeStep merge lvl tcs st = some st') : LevelsApart le st'.levels := by
  have hsub := determine_sub ha hb hdet
  obtain ⟨mn, mx, d1, d2, d3, d4⟩ := determine_range hto hdet
  unfold mergeStep at hs
  cases hin : tcs.mapM (fun tc => fileRows st.files tc.1 tc.2) with
  | none => rw [hin] at hs; simp at hs
  | some ins =>
    rw [hin] at hs
    dsimp only at hs
    have hins : ins = tcs.map G := ins_eq h tcs ins hsub hin
    cases ho : merge ins with
    | none => rw [ho] at hs; simp at hs
    | some outs =>
      rw [ho] at hs
      simp only [Option.some.injEq] at hs
      have hsorted : ∀ b ∈ ins, SortedBy le key b := by
        intro b hb
        rw [hins] at hb
        obtain ⟨p, hp, rfl⟩ := List.mem_map.mp hb
        obtain ⟨k, lv, q, h1, h2, rfl⟩ := mem_pathsOf.mp (hsub p hp)
        rw [Nat.zero_add]
        exact (h.ok k lv h1 q h2).2.2.1
      obtain ⟨hord, hatt⟩ := hm ins outs hsorted ho
      have hb' := dropAll_get tcs st.levels (lvl + 1)
      rw [hb, Option.map_some] at hb'
      obtain ⟨ps, n, e1, e2, e3⟩ := addOuts_levels (k := lvl + 1) outs { st with levels := tcs.foldl (fun ls tc => ls.modify tc.1 (dropId tc.2)) st.levels } _ hb'
      have hlv : st'.levels = (outs.foldl (addOut (lvl + 1)) { st with levels := tcs.foldl (fun ls tc => ls.modify tc.1 (dropId tc.2)) st.levels }).levels := by rw [← hs]
      intro k lv hk h1k
      rw [hlv] at hk
      by_cases hkl : k = lvl + 1
      · subst hkl
        rw [e1] at hk
        cases hk
        have hout : ∀ q ∈ ps, ∃ x ∈ outs, x.min = q.min ∧ x.max = q.max := by
          intro q hq
          have : (q.min, q.max) ∈ outs.map (fun x => (x.min, x.max)) := by rw [← e2]; exact List.mem_map.mpr ⟨q, hq, rfl⟩
          obtain ⟨x, hx, e⟩ := List.mem_map.mp this
          exact ⟨x, hx, congrArg Prod.fst e, congrArg Prod.snd e⟩
        -- the keys of the inputs
        have hkeys : ∀ r ∈ ins.flatten, (le mn (key r) ∧ le (key r) mx) ∨
            ∃ z ∈ b.parts, (lvl + 1, z.id) ∈ tcs ∧ le z.min (key r) ∧ le (key r) z.max := by
          intro r hr
          rw [hins] at hr
          obtain ⟨l, hl', hr⟩ := List.mem_flatten.mp hr
          obtain ⟨p, hp, rfl⟩ := List.mem_map.mp hl'
          rcases d2 p hp with e | e
          · obtain ⟨q, hq, hid, hq1, hq2⟩ := d1 p.2 (by rw [← e]; exact hp)
            have hpe : p = (lvl, q.id) := Prod.ext e hid.symm
            have := (h.ok lvl a ha q hq).2.2.2 r (by rw [← hpe]; exact hr)
            exact .inl ⟨hto.trans hq1 this.1, hto.trans this.2 hq2⟩
          · obtain ⟨z, hz, hid, -⟩ := d4 p.2 (by rw [← e]; exact hp)
            have hpe : p = (lvl + 1, z.id) := Prod.ext e hid.symm
            have := (h.ok (lvl + 1) b hb z hz).2.2.2 r (by rw [← hpe]; exact hr)
            exact .inr ⟨z, hz, by rw [← hpe]; exact hp, this⟩
        rw [List.pairwise_append]
        refine ⟨(hl (lvl + 1) b hb (by omega)).sublist List.filter_sublist, ?_, ?_⟩
        · have h2 : (ps.map (fun q => (q.min, q.max))).Pairwise (fun x y => le x.2 y.1) := by
            rw [e2]; exact List.pairwise_map.mpr hord
          exact List.Pairwise.imp (fun h => .inl h) (List.pairwise_map.mp h2)
        · intro z hz q hq
          obtain ⟨hz, hzt⟩ := List.mem_filter.mp hz
          have hzt : (lvl + 1, z.id) ∉ tcs := by simpa using hzt
          obtain ⟨x, hx, hx1, hx2⟩ := hout q hq
          obtain ⟨⟨r1, hr1, k1⟩, ⟨r2, hr2, k2⟩⟩ := hatt x hx
          rw [hx1] at k1
          rw [hx2] at k2
          -- a chosen part of the next level
          have other : ∀ y ∈ b.parts, (lvl + 1, y.id) ∈ tcs → (le z.max y.min ∨ le y.max z.min ∨ le z.max z.min) ∧ ¬ le y.max mn ∧ ¬ le mx y.min ∧ ¬ le mx mn := by
            intro y hy hyt
            obtain ⟨y', hy', hid, n1, n2, n3, n4⟩ := d4 y.id hyt
            cases id_inj h hb hy' hy hid
            refine ⟨?_, n2, n3, n4⟩
            rcases pairwise_two (fun h => h.symm) (hl (lvl + 1) b hb (by omega)) hz hy with rfl | hap
            · exact absurd hyt hzt
            · rcases hap with h | h | h | h
              · exact .inl h
              · exact .inr (.inl h)
              · exact .inr (.inr h)
              · exact absurd h n1
          rcases d3 z hz hzt with hd | hd | hd | hd
          · exact .inr (.inr (.inl hd))
          · -- z lies before the range
            by_cases hdeg : le z.max z.min
            · exact .inr (.inr (.inl hdeg))
            · refine .inl ?_
              rw [← k1]
              rcases hkeys r1 hr1 with hr | ⟨y, hy, hyt, hr⟩
              · exact hto.trans hd hr.1
              · obtain ⟨h1, h2, -⟩ := other y hy hyt
                rcases h1 with h1 | h1 | h1
                · exact hto.trans h1 hr.1
                · refine absurd (hto.trans h1 (hto.trans ?_ hd)) h2
                  exact (hto.total _ _).resolve_right hdeg
                · exact absurd h1 hdeg
          · -- z lies behind the range
            by_cases hdeg : le z.max z.min
            · exact .inr (.inr (.inl hdeg))
            · refine .inr (.inl ?_)
              rw [← k2]
              rcases hkeys r2 hr2 with hr | ⟨y, hy, hyt, hr⟩
              · exact hto.trans hr.2 hd
              · obtain ⟨h1, -, h2, -⟩ := other y hy hyt
                rcases h1 with h1 | h1 | h1
                · refine absurd (hto.trans hd (hto.trans ?_ h1)) h2
                  exact (hto.total _ _).resolve_right hdeg
                · exact hto.trans hr.2 h1
                · exact absurd h1 hdeg
          · -- the range is a single key
            refine .inr (.inr (.inr ?_))
            have all : ∀ r ∈ ins.flatten, le mn (key r) ∧ le (key r) mx := by
              intro r hr
              rcases hkeys r hr with hr | ⟨y, hy, hyt, -⟩
              · exact hr
              · exact absurd hd (other y hy hyt).2.2.2
            rw [← k1, ← k2]
            exact hto.trans (all r2 hr2).2 (hto.trans hd (all r1 hr1).1)
      · rw [e3 k hkl] at hk
        dsimp only at hk
        rw [dropAll_get] at hk
        obtain ⟨lv0, e0, rfl⟩ := Option.map_eq_some_iff.mp hk
        exact (hl k lv0 e0 h1k).sublist List.filter_sublist

theorem moveStep_apart {le : K → K → Prop} [DecidableRel le] (hto : TotOrd le) {st st' : CState R K} {o : CompOpts} {lvl i : Nat} {a b : DLevel K}
    {key : R → K} {G : Nat × Nat → List R} (h : CInv le key G (pathsOf 0 st.levels) st)
    (ha : st.levels[lvl]? = some a) (hb : st.levels[lvl + 1]? = some b) (hdet : determine le o lvl a b = some [(lvl, i)]) (hl : LevelsApart le st.levels)
    (hs : moveStep lvl i b st = some st') : LevelsApart le st'.levels := by
  obtain ⟨mn, mx, d1, d2, d3, d4⟩ := determine_range hto hdet
  unfold moveStep at hs
  rw [ha] at hs
  dsimp only at hs
  cases hq : a.parts.find? (fun q => q.id == i) with
  | none => rw [hq] at hs; simp at hs
  | some q =>
    rw [hq] at hs
    simp only [Option.some.injEq] at hs
    subst hs
    have hqm := List.mem_of_find?_eq_some hq
    have hqid : q.id = i := by simpa using List.find?_some hq
    intro k lv hk h1k
    dsimp only at hk
    rw [List.getElem?_modify, List.getElem?_modify] at hk
    by_cases hkl : lvl + 1 = k
    · subst hkl
      rw [hb] at hk
      simp only [Option.map_eq_map, Option.map_some, if_true, if_neg (show ¬ lvl = lvl + 1 by omega), Option.some.injEq] at hk
      subst hk
      simp only [pushPart]
      rw [List.pairwise_append]
      refine ⟨hl _ b hb (by omega), by simp, ?_⟩
      intro z hz y hy
      have hy := List.mem_singleton.mp hy
      subst hy
      obtain ⟨q', hq', hid, g1, g2⟩ := d1 i (by simp)
      cases id_inj h ha hq' hqm (by rw [hid, hqid])
      show Apart le z { q with id := b.partId + 1 }
      unfold Apart
      dsimp only
      rcases d3 z hz (by simp) with hd | hd | hd | hd
      · exact .inr (.inr (.inl hd))
      · exact .inl (hto.trans hd g1)
      · exact .inr (.inl (hto.trans g2 hd))
      · exact .inr (.inr (.inr (hto.trans g2 (hto.trans hd g1))))
    · simp only [if_neg hkl] at hk
      cases hx : st.levels[k]? with
      | none => rw [hx] at hk; simp at hk
      | some lv0 =>
        rw [hx] at hk
        by_cases hkl' : lvl = k
        · simp only [if_pos hkl', Option.map_eq_map, Option.map_some, Option.some.injEq] at hk
          subst hk
          exact (hl k lv0 hx h1k).sublist List.eraseP_sublist
        · simp only [if_neg hkl', Option.map_eq_map, Option.map_some, Option.some.injEq] at hk
          subst hk
          exact hl k lv0 hx h1k

theorem determine_single {le : K → K → Prop} [DecidableRel le] {o : CompOpts} {lvl : Nat} {a b : DLevel K} {tc : Nat × Nat}
    (h : determine le o lvl a b = some [tc]) : tc.1 = lvl := by
  obtain ⟨f, e, hne⟩ := determine_shape h
  cases hc : chosenIds o lvl a with
  | nil => exact absurd hc hne
  | cons i is =>
    rw [hc, List.map_cons, List.cons_append] at e
    injection e with e _
    rw [e]

theorem compactLoop_apart {le : K → K → Prop} [DecidableRel le] (hto : TotOrd le) {key : R → K} {o : CompOpts}
    {merge : List (List R) → Option (List (MOut R K))} (hm : IsMerge le key merge) (hi : InOrder le key merge) (lvls : List Nat) :
    ∀ {G : Nat × Nat → List R} {st st' : CState R K}, CInv le key G (pathsOf 0 st.levels) st → LevelsApart le st.levels →
      compactLoop le o merge lvls st = some (some st') → LevelsApart le st'.levels := by
  induction lvls with
  | nil =>
    intro G st st' h hl hs
    simp only [compactLoop, Option.some.injEq] at hs
    subst hs
    exact hl
  | cons lvl lvls ih =>
    intro G st st' h hl hs
    unfold compactLoop at hs
    cases ha : st.levels[lvl]? with
    | none => rw [ha] at hs; simp at hs
    | some a =>
      cases hb : st.levels[lvl + 1]? with
      | none => rw [ha, hb] at hs; simp at hs
      | some b =>
        rw [ha, hb] at hs
        dsimp only at hs
        cases hdet : determine le o lvl a b with
        | none =>
          rw [hdet] at hs
          dsimp only at hs
          split at hs
          · simp only [Option.some.injEq] at hs
            subst hs
            exact hl
          · simp at hs
        | some tcs =>
          rw [hdet] at hs
          dsimp only at hs
          have hsub := determine_sub ha hb hdet
          have h0 : CInv le key G (pathsOf 0 st.levels) { st with done := true, picks := st.picks ++ [tcs] } :=
            ⟨h.nd, h.sub, h.bd, h.fresh, h.ment, h.cnt, h.ok, h.cons, h.virt⟩
          have step : ∀ st1, (match tcs with
              | [tc] => moveStep lvl tc.2 b { st with done := true, picks := st.picks ++ [tcs] }
              | _ => mergeStep merge lvl tcs { st with done := true, picks := st.picks ++ [tcs] }) = some st1 →
              LevelsApart le st1.levels ∧ ∃ G1, CInv le key G1 (pathsOf 0 st1.levels) st1 := by
            intro st1 hst
            have hmg : mergeStep merge lvl tcs { st with done := true, picks := st.picks ++ [tcs] } = some st1 →
                LevelsApart le st1.levels ∧ ∃ G1, CInv le key G1 (pathsOf 0 st1.levels) st1 := by
              intro hst
              obtain ⟨G1, i1, -⟩ := mergeStep_inv (st := { st with done := true, picks := st.picks ++ [tcs] }) hm h0 (List.getElem?_eq_some_iff.mp hb).1 hsub hst
              exact ⟨mergeStep_apart (st := { st with done := true, picks := st.picks ++ [tcs] }) hto hi h0 ha hb hdet hl hst, G1, i1⟩
            rcases tcs with _ | ⟨tc, _ | ⟨y, zs⟩⟩
            · exact hmg hst
            · have htc : tc = (lvl, tc.2) := Prod.ext (determine_single hdet) rfl
              obtain ⟨G1, i1, -⟩ := moveStep_inv (st := { st with done := true, picks := st.picks ++ [[tc]] }) h0 hb hst
              exact ⟨moveStep_apart (st := { st with done := true, picks := st.picks ++ [[tc]] }) hto h0 ha hb (htc ▸ hdet) hl hst, G1, i1⟩
            · exact hmg hst
          split at hs
          · simp at hs
          · rename_i st1 hst
            obtain ⟨g1, G1, g2⟩ := step st1 hst
            exact ih g2 g1 hs

theorem hstep_apart [DecidableEq R] {le : K → K → Prop} [DecidableRel le] (hto : TotOrd le) {e : Env R K} (he : EnvOk le sort e) (hi : InOrder le e.key e.merge)
    {s s' : Disk R K × Proc R K} (hc : Clean le e.key s.1 s.2) (hn : s.2.md.levels ≠ []) (hl : LevelsApart le s.2.md.levels) {op : HOp R}
    (h : hstep le e s op = some s') : LevelsApart le s'.2.md.levels := by
  obtain ⟨d, p⟩ := s
  cases op with
  | insert r =>
    simp only [hstep, Option.some.injEq] at h
    subst h
    exact hl
  | flush =>
    simp only [hstep] at h
    by_cases hne : p.mem = []
    · have : flush e.key e.toBlock e.size d p = some (d, p) := by simp [flush, hne]
      rw [this] at h
      injection h with h
      subst h
      exact hl
    · cases hlv : p.md.levels with
      | nil => exact absurd hlv hn
      | cons l0 ls =>
        obtain ⟨q, a, b, _, _, hid, _, _, _, _, hfl, hc'⟩ := flush_clean hto he.sorts he.blocks e.size hc hne hlv
        rw [hfl] at h
        injection h with h
        subst h
        intro k lv hk h1
        cases k with
        | zero => omega
        | succ k => exact hl (k + 1) lv (by simpa [hlv] using hk) h1
  | compact c =>
    simp only [hstep] at h
    cases hcm : compact le e.opts e.merge d.parts c p.md.levels with
    | none => simp [runCompaction, hcm] at h
    | some r =>
      cases r with
      | none =>
        simp [runCompaction, hcm] at h
        subst h
        exact hl
      | some st =>
        obtain ⟨d', p', t, t', h1, h2, hmem, hlv, _⟩ := compaction_clean he.l0 he.merges hc c hcm
        rw [h1] at h
        injection h with h
        subst h
        rw [hlv]
        unfold compact at hcm
        split at hcm
        · simp at hcm
        · exact compactLoop_apart hto he.merges hi _ (clean_inv hc c) hl hcm

/-! ## The claims -/

/-- **C113** (partial: touching and single-key parts, `C113_violated`; a single flush-and-compact thread; the merger's outputs are taken to
follow each other, which recorded page ranges of more than one column need not). After every history of inserts, flushes and compactions, any
two parts of a level from 1 on are apart. -/
theorem C113_partial [DecidableEq R] {le : K → K → Prop} [DecidableRel le] (hto : TotOrd le) {e : Env R K} (he : EnvOk le sort e) (hi : InOrder le e.key e.merge)
    {n : Nat} (hn : 1 ≤ n) {ops : List (HOp R)} {s : Disk R K × Proc R K} (h : hrun le e (createDisk n, createProc n) ops = some s) :
    LevelsApart le s.2.md.levels := by
  have gen : ∀ (ops : List (HOp R)) {s s' : Disk R K × Proc R K}, Clean le e.key s.1 s.2 → s.2.md.levels ≠ [] → LevelsApart le s.2.md.levels →
      hrun le e s ops = some s' → LevelsApart le s'.2.md.levels := by
    intro ops
    induction ops with
    | nil => intro s s' _ _ hl h; simp only [hrun, Option.some.injEq] at h; subst h; exact hl
    | cons op ops ih =>
      intro s s' hc hn hl h
      simp only [hrun] at h
      cases hop : hstep le e s op with
      | none => rw [hop] at h; simp at h
      | some s1 =>
        rw [hop] at h
        obtain ⟨h1, h2, -⟩ := hstep_clean hto he hc hn hop
        have hn1 : s1.2.md.levels ≠ [] := by
          intro e'
          rw [e'] at h2
          exact hn (List.eq_nil_of_length_eq_zero h2.symm)
        exact ih h1 hn1 (hstep_apart hto he hi hc hn hl hop) h
  refine gen ops (create_clean le e.key n) (by simp [createProc]; omega) ?_ h
  intro k lv hk _
  simp only [createProc, List.getElem?_replicate] at hk
  split at hk
  · cases hk; exact .nil
  · cases hk

/-- A key strictly inside the range of one part, from level 1 on, is outside the ranges of the other parts of its level that have more than one key. -/
theorem C113_inside [DecidableEq R] {le : K → K → Prop} [DecidableRel le] (hto : TotOrd le) {e : Env R K} (he : EnvOk le sort e) (hi : InOrder le e.key e.merge)
    {n : Nat} (hn : 1 ≤ n) {ops : List (HOp R)} {s : Disk R K × Proc R K} (h : hrun le e (createDisk n, createProc n) ops = some s)
    {k : Nat} {lv : DLevel K} (hk : s.2.md.levels[k]? = some lv) (h1 : 1 ≤ k) {x y : PartRef K} (hx : x ∈ lv.parts) (hy : y ∈ lv.parts) (hxy : x ≠ y)
    {v : K} (v1 : ¬ le v x.min) (v2 : ¬ le x.max v) (hyd : ¬ le y.max y.min) : ¬ (le y.min v ∧ le v y.max) := by
  rintro ⟨w1, w2⟩
  rcases pairwise_two (fun h => h.symm) (C113_partial hto he hi hn h k lv hk h1) hx hy with e' | e' | e' | e' | e'
  · exact hxy e'
  · exact v2 (hto.trans e' w1)
  · exact v1 (hto.trans w2 e')
  · exact v2 (hto.trans e' ((hto.total _ _).resolve_left v1))
  · exact hyd e'

/-- The merger which writes one file keeps to the order. -/
theorem oneFile_inOrder {le : K → K → Prop} {key : R → K} (hs : IsSort le key sort) : InOrder le key (oneFile key sort) := by
  intro ins outs _ h
  unfold oneFile at h
  split at h
  · rename_i a b ha hb
    injection h with h
    subst h
    refine ⟨by simp, fun x hx => ?_⟩
    have hx := List.mem_singleton.mp hx
    subst hx
    exact ⟨⟨a, (hs.perm _).mem_iff.mp (List.mem_of_mem_head? ha), rfl⟩, ⟨b, (hs.perm _).mem_iff.mp (List.mem_of_mem_getLast? hb), rfl⟩⟩
  · injection h with h
    subst h
    exact ⟨.nil, fun x hx => by cases hx⟩

/-- The ranges of the parts of a level after a history. -/
def rangesAt (e : Env DRow (Int × Int)) (levels k : Nat) (ops : List (HOp DRow)) : Option (List ((Int × Int) × (Int × Int))) :=
  (hrun lexLe e (createDisk levels, createProc levels) ops).bind fun s => s.2.md.levels[k]?.map fun lv => lv.parts.map fun q => (q.min, q.max)

/-- Two parts of one row each, compacted. -/
def twoRows (a b : Int) : List (HOp DRow) := [.insert ((a, 0), 0), .flush, .insert ((b, 0), 0), .flush, .compact noneOpen]

/-- Non-vacuity: separate ranges stay separate files, and a file spanning both replaces them. -/
example : rangesAt (demoEnv 1 100 100) 4 1 (twoRows 1 2 ++ twoRows 5 6) = some [((1, 0), (2, 0)), ((5, 0), (6, 0))] ∧
    rangesAt (demoEnv 1 100 100) 4 1 (twoRows 1 3 ++ twoRows 5 7 ++ twoRows 2 6) = some [((1, 0), (7, 0))] := by decide +kernel

example {n : Nat} (hn : 1 ≤ n) {ops : List (HOp DRow)} {s : Disk DRow (Int × Int) × Proc DRow (Int × Int)}
    (h : hrun lexLe (demoEnv 1 100 100) (createDisk n, createProc n) ops = some s) : LevelsApart lexLe s.2.md.levels :=
  C113_partial lexTotOrd (demoEnv_ok 1 100 100 (by omega)) (oneFile_inOrder (sortRows_isSort _)) hn h

/-- The ranges of a level are not disjoint: a part of a single key lies inside the range of a part merged later, and ranges share their ends. -/
theorem C113_violated : rangesAt (demoEnv 1 100 100) 4 1 (twoRows 5 5 ++ twoRows 3 7) = some [((5, 0), (5, 0)), ((3, 0), (7, 0))] ∧
    rangesAt (demoEnv 1 100 100) 4 1 (twoRows 3 5 ++ twoRows 5 7) = some [((3, 0), (5, 0)), ((5, 0), (7, 0))] := by decide +kernel

end OptiPrism.Storage
