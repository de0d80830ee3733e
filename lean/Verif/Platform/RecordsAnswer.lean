import Verif.Platform.RecordsWay

/-!
# From the plan of a search to its answer
-/

namespace OptiPrism.Platform

open OptiPrism.Meta (Str PropOp PropertyRef EventRef Scalar PropFilter Kv Property PropType Event propsC customC eventsC kEvents dictGetValue dictGetKey)
open OptiPrism.Query
open OptiPrism.Ingest (groupCol)

variable {N : Type} {E : ReqEnv N} {sys : Str → Str} {p : Nat} {kv : Kv}

/-! ## Lists -/

theorem perm_map {α β : Type} (f : α → β) {l1 l2 : List β} (h : l1.Perm l2) : ∀ l : List α, l2 = l.map f → ∃ l' : List α, l'.Perm l ∧ l1 = l'.map f := by
  induction h with
  | nil =>
    intro l hl
    cases l with
    | nil => exact ⟨[], .refl _, rfl⟩
    | cons a l => cases hl
  | @cons x l1 l2 _ ih =>
    intro l hl
    cases l with
    | nil => cases hl
    | cons a l =>
      injection hl with e1 e2
      obtain ⟨l', h1, h2⟩ := ih l e2
      exact ⟨a :: l', h1.cons a, by rw [h2, e1]; rfl⟩
  | swap x y l1 =>
    intro l hl
    match l, hl with
    | a :: b :: l, hl =>
      injection hl with e1 hl
      injection hl with e2 e3
      exact ⟨b :: a :: l, .swap .., by rw [e1, e2, e3]; rfl⟩
  | trans _ _ ih1 ih2 =>
    intro l hl
    obtain ⟨l', h1, h2⟩ := ih2 l hl
    obtain ⟨l'', h3, h4⟩ := ih1 l' h2
    exact ⟨l'', h3.trans h1, h4⟩

theorem mapM_eq_map {α : Type} {f : α → Option α} {l l' : List α} (h : l.mapM f = some l') :
    l' = l.map (fun a => (f a).getD a) ∧ ∀ a ∈ l, f a = some ((f a).getD a) := by
  induction l generalizing l' with
  | nil => simp at h; subst h; simp
  | cons a l ih =>
    simp only [List.mapM_cons, Option.bind_eq_bind, Option.pure_def, Option.bind_eq_some_iff] at h
    obtain ⟨b, hb, bs, hbs, e⟩ := h
    cases e
    obtain ⟨i1, i2⟩ := ih hbs
    refine ⟨by rw [List.map_cons, hb, ← i1]; rfl, fun x hx => ?_⟩
    rcases List.mem_cons.mp hx with rfl | hx
    · rw [hb]; rfl
    · exact i2 x hx

theorem mapM_of {α β : Type} {f : α → Option β} {g : α → β} {l : List α} (h : ∀ a ∈ l, f a = some (g a)) : l.mapM f = some (l.map g) := by
  induction l with
  | nil => rfl
  | cons a l ih =>
    rw [List.mapM_cons, h a (by simp), ih fun x hx => h x (List.mem_cons_of_mem _ hx)]
    rfl

/-! ## Rows -/

/-- A row as it is decoded. -/
def decodedAs (p : Nat) (kv : Kv) (ds : List (Str × Str)) (row : QRow) : QRow := (decodeRow p kv ds row).getD row

/-- The rows of the answer, those cut off, and those not kept. -/
theorem answer_shape (S : Sem) {order : List QRow → List QRow} (hperm : ∀ l, (order l).Perm l) (c : RecordsPlan) {rows rows1 : List QRow}
    (h1 : decodeRows p kv c.decoded rows = some rows1) :
    ∃ L M R : List QRow, (L ++ M ++ R).Perm rows ∧ (∀ row ∈ rows, decodeRow p kv c.decoded row = some (decodedAs p kv c.decoded row)) ∧
      (∀ row ∈ L ++ M, Selects S (decodedAs p kv c.decoded row) c.filter) ∧ (∀ row ∈ R, ¬ Selects S (decodedAs p kv c.decoded row) c.filter) ∧
      L.length ≤ 100 ∧ (M = [] ∨ L.length = 100) ∧ order (kept S c.filter rows1) = (L ++ M).map (decodedAs p kv c.decoded) ∧
      answer S p kv order c rows = (decodeRows p kv c.after (L.map (decodedAs p kv c.decoded))).bind fun x => (labelled c x).map emptied := by
  obtain ⟨e1, e2⟩ := mapM_eq_map h1
  have hk : kept S c.filter rows1 =
      (rows.filter fun row => eval S (decodedAs p kv c.decoded row) c.filter == some true).map (decodedAs p kv c.decoded) := by
    unfold kept
    rw [e1, List.filter_map]
    rfl
  obtain ⟨l, hl1, hl2⟩ := perm_map _ (hperm (kept S c.filter rows1)) _ hk
  refine ⟨l.take 100, l.drop 100, rows.filter fun row => !(eval S (decodedAs p kv c.decoded row) c.filter == some true), ?_, e2, ?_, ?_, ?_, ?_, ?_, ?_⟩
  · rw [List.take_append_drop]
    exact (hl1.append_right _).trans (List.filter_append_perm _ _)
  · rw [List.take_append_drop]
    intro row hr
    have := (List.mem_filter.mp (hl1.subset hr)).2
    simpa [Selects] using this
  · intro row hr
    have := (List.mem_filter.mp hr).2
    simpa [Selects] using this
  · rw [List.length_take]; omega
  · by_cases h : l.length ≤ 100
    · exact .inl (List.drop_eq_nil_of_le h)
    · right; rw [List.length_take]; omega
  · rw [List.take_append_drop]; exact hl2
  · unfold answer
    rw [h1]
    simp only [Option.bind_eq_bind, Option.pure_def, Option.bind_some]
    rw [hl2, ← List.map_take]
    cases decodeRows p kv c.after ((l.take 100).map (decodedAs p kv c.decoded)) with
    | none => rfl
    | some x =>
      simp only [Option.bind_some]
      cases labelled c x <;> rfl

/-! ## Labels -/

/-- A column of the answer for every property, in order. -/
theorem labelled_at (c : RecordsPlan) (hn : c.names.length = c.shown.length) (hl : c.shown.length ≤ c.props.length) (rows : List QRow) :
    ∃ cs : List RecordColumn, labelled c rows = some cs ∧ cs.length = c.shown.length ∧ ∀ (i : Nat) (x : RecordColumn), cs[i]? = some x → ∃ r s n, c.props[i]? = some r ∧ c.shown[i]? = some s ∧
      c.names[i]? = some n ∧ x = ⟨reference r, n, rows.map fun row => row s⟩ := by
  have hz : ∀ x ∈ (c.shown.zip c.names).zipIdx, x.2 < c.props.length ∧ (c.shown.zip c.names)[x.2]? = some x.1 := by
    intro x hx
    have := List.mem_zipIdx hx
    have h2 := this.2.1
    rw [List.length_zip] at h2
    refine ⟨by omega, ?_⟩
    rw [List.getElem?_eq_getElem (by rw [List.length_zip]; omega)]
    have := this.2.2
    simp only [Nat.sub_zero] at this
    rw [← this]
  have key : ∀ x ∈ (c.shown.zip c.names).zipIdx, (c.props[x.2]?).map (fun r => (⟨reference r, x.1.2, rows.map fun row => row x.1.1⟩ : RecordColumn)) =
      some ((fun x => ⟨((c.props[x.2]?).map reference).getD (.event []), x.1.2, rows.map fun row => row x.1.1⟩) x) := by
    intro x hx
    simp only [List.getElem?_eq_getElem (hz x hx).1, Option.map_some, Option.getD_some]
  have hm := mapM_of key
  refine ⟨_, hm, by simp [List.length_zip, hn], fun i x hx => ?_⟩
  rw [List.getElem?_map] at hx
  cases hy : (c.shown.zip c.names).zipIdx[i]? with
  | none => rw [hy] at hx; cases hx
  | some y =>
    rw [hy] at hx
    cases hx
    have hmem := List.mem_of_getElem? hy
    obtain ⟨z1, z2⟩ := hz y hmem
    have hi : y.2 = i := by
      rw [List.getElem?_zipIdx] at hy
      cases h : (c.shown.zip c.names)[i]? with
      | none => rw [h] at hy; cases hy
      | some v => rw [h] at hy; cases hy; simp
    rw [hi] at z1 z2
    obtain ⟨z3, z4⟩ := List.getElem?_zip_eq_some.mp z2
    refine ⟨c.props[i], y.1.1, y.1.2, List.getElem?_eq_getElem z1, z3, z4, ?_⟩
    simp only [hi, List.getElem?_eq_getElem z1, Option.map_some, Option.getD_some]

/-- With more columns than properties the answer is a panic. -/
theorem labelled_none (c : RecordsPlan) (hn : c.names.length = c.shown.length) (hl : c.props.length < c.shown.length) (rows : List QRow) :
    labelled c rows = none := by
  cases h : labelled c rows with
  | none => rfl
  | some cs =>
    exfalso
    unfold labelled at h
    have hlen : (c.shown.zip c.names).zipIdx.length = c.shown.length := by simp [List.length_zip, hn]
    have hi : (c.shown.zip c.names).zipIdx[c.props.length]? = some ((c.shown.zip c.names)[c.props.length]'(by simp [List.length_zip, hn, hl]), c.props.length) := by
      rw [List.getElem?_zipIdx, List.getElem?_eq_getElem (by simp [List.length_zip, hn, hl])]
      simp
    obtain ⟨b, hb, hx⟩ := mapM_get h hi
    simp at hx

theorem newNames_fst (found : List Str) (props : List Property) : (newNames sys found props).map (·.1) = props.map fun r => r.columnName sys := by
  induction props generalizing found with
  | nil => rfl
  | cons r rs ih => simp [newNames, ih]

theorem newNames_at (found : List Str) (props : List Property) {i : Nat} {x : Str × Str} (h : (newNames sys found props)[i]? = some x) :
    ∃ r, props[i]? = some r ∧ x.1 = r.columnName sys ∧ (x.2 = r.displayName.getD r.name ∨ ∃ n, 2 ≤ n ∧ x.2 = r.displayName.getD r.name ++ ' ' :: decimal n) := by
  induction props generalizing found i with
  | nil => simp [newNames] at h
  | cons r rs ih =>
    cases i with
    | zero =>
      simp only [newNames, List.getElem?_cons_zero, Option.some.injEq] at h
      subst h
      refine ⟨r, rfl, rfl, ?_⟩
      dsimp only
      by_cases h0 : (found.filter fun f => f = visibleName r).length = 0
      · rw [if_pos h0]; exact .inl rfl
      · rw [if_neg h0]; exact .inr ⟨_, by omega, rfl⟩
    | succ i =>
      simp only [newNames, List.getElem?_cons_succ] at h
      obtain ⟨r', h1, h2⟩ := ih _ h
      exact ⟨r', h1, h2⟩

theorem renamed_at {props : List Property} (hnd : (props.map fun r => r.columnName sys).Nodup) {i : Nat} {r : Property} (h : props[i]? = some r) :
    renamed (newNames sys [] props) (r.columnName sys) = r.displayName.getD r.name ∨
    ∃ n, 2 ≤ n ∧ renamed (newNames sys [] props) (r.columnName sys) = r.displayName.getD r.name ++ ' ' :: decimal n := by
  unfold renamed
  have hlen : (newNames sys [] props).length = props.length := by
    have := congrArg List.length (newNames_fst (sys := sys) [] props)
    simpa using this
  cases hf : (newNames sys [] props).find? fun x => x.1 = r.columnName sys with
  | none =>
    exfalso
    have hlt := (List.getElem?_eq_some_iff.mp h).1
    have hx := List.getElem?_eq_getElem (l := newNames sys [] props) (i := i) (by omega)
    obtain ⟨r', h1, h2, -⟩ := newNames_at _ _ hx
    rw [h] at h1
    cases h1
    exact absurd (List.find?_eq_none.mp hf _ (List.mem_of_getElem? hx)) (by simpa using h2)
  | some x =>
    dsimp only
    have h1 : x.1 = r.columnName sys := by simpa using List.find?_some hf
    obtain ⟨j, hj⟩ := List.getElem?_of_mem (List.mem_of_find?_eq_some hf)
    obtain ⟨r', h2, h3, h4⟩ := newNames_at _ _ hj
    have : i = j := by
      have hlt := (List.getElem?_eq_some_iff.mp h).1
      have hlt' := (List.getElem?_eq_some_iff.mp h2).1
      refine (List.getElem_inj (h₀ := by simpa using hlt) (h₁ := by simpa using hlt') hnd).mp ?_
      simp only [List.getElem_map]
      rw [(List.getElem?_eq_some_iff.mp h).2, (List.getElem?_eq_some_iff.mp h2).2, ← h3, h1]
    subst this
    rw [h] at h2
    cases h2
    exact h4

theorem namedColumns_ok {shown : List Str} {props : List Property} {names : List Str} (h : namedColumns sys shown props = .ok names) :
    names = shown.map (renamed (newNames sys [] props)) ∧ names.Nodup := by
  unfold namedColumns at h
  dsimp only at h
  split at h
  · rename_i hn; cases h; exact ⟨rfl, hn⟩
  · cases h

/-! ## Columns asked for -/

theorem uniqueColumns_spec (seen : List Str) (rs : List Property) :
    ((uniqueColumns sys seen rs).map fun r => r.columnName sys).Nodup ∧ (∀ r ∈ uniqueColumns sys seen rs, r ∈ rs ∧ r.columnName sys ∉ seen) ∧
    ∀ r ∈ rs, r.columnName sys ∉ seen → ∃ r' ∈ uniqueColumns sys seen rs, r'.columnName sys = r.columnName sys := by
  induction rs generalizing seen with
  | nil => simp [uniqueColumns]
  | cons a rs ih =>
    unfold uniqueColumns
    by_cases h : seen.contains (a.columnName sys) = true
    · rw [if_pos h]
      have h' : a.columnName sys ∈ seen := by simpa using h
      obtain ⟨i1, i2, i3⟩ := ih seen
      refine ⟨i1, fun r hr => ⟨List.mem_cons_of_mem _ (i2 r hr).1, (i2 r hr).2⟩, fun r hr hn => ?_⟩
      rcases List.mem_cons.mp hr with rfl | hr
      · exact absurd h' hn
      · exact i3 r hr hn
    · rw [if_neg h]
      have h' : a.columnName sys ∉ seen := by simpa using h
      obtain ⟨i1, i2, i3⟩ := ih (seen ++ [a.columnName sys])
      refine ⟨?_, ?_, ?_⟩
      · rw [List.map_cons, List.nodup_cons]
        refine ⟨fun hm => ?_, i1⟩
        obtain ⟨r, hr, e⟩ := List.mem_map.mp hm
        exact (i2 r hr).2 (by rw [e]; simp)
      · intro r hr
        rcases List.mem_cons.mp hr with rfl | hr
        · exact ⟨by simp, h'⟩
        · exact ⟨List.mem_cons_of_mem _ (i2 r hr).1, fun hm => (i2 r hr).2 (List.mem_append_left _ hm)⟩
      · intro r hr hn
        by_cases e : r.columnName sys = a.columnName sys
        · exact ⟨a, by simp, e.symm⟩
        · rcases List.mem_cons.mp hr with rfl | hr
          · exact absurd rfl e
          · obtain ⟨r', h1, h2⟩ := i3 r hr (by simp [hn, e])
            exact ⟨r', List.mem_cons_of_mem _ h1, h2⟩

theorem uniqueColumns_nil {seen : List Str} {rs : List Property} (hs : seen = []) : uniqueColumns sys seen rs = [] ↔ rs = [] := by
  subst hs
  constructor
  · intro h
    cases rs with
    | nil => rfl
    | cons a rs =>
      obtain ⟨r', h1, -⟩ := (uniqueColumns_spec (sys := sys) [] (a :: rs)).2.2 a (by simp) (by simp)
      rw [h] at h1
      cases h1
  · rintro rfl; rfl

/-! ## Values -/

theorem decodeRow_some {ds : List (Str × Str)} {row : QRow} (h : ∀ d ∈ ds, ∃ y, decodeCell p kv d.2 d.1 (row d.1) = some y) :
    ∃ row', decodeRow p kv ds row = some row' := by
  unfold decodeRow
  rw [if_pos]
  · exact ⟨_, rfl⟩
  · rw [List.all_eq_true]
    intro d _
    cases hf : ds.find? fun x => x.1 = d.1 with
    | none => rfl
    | some x =>
      obtain ⟨y, hy⟩ := h x (List.mem_of_find?_eq_some hf)
      simp only [hy, Option.isSome_some]

/-- The numbers of a dictionary are found, and fit the columns. -/
def Keyed (p : Nat) (kv : Kv) (t d : Str) : Prop := ∀ k s, dictGetValue p t d k kv = .ok s → k < 2 ^ 63

theorem decodeCell_value {t : Str} {r : Property} (hr : r.isDictionary = true) {row : QRow} {v : Option Cell} (hv : ValueAt sys p kv t r row v)
    (hk : Keyed p kv t (r.columnName sys)) : decodeCell p kv t (r.columnName sys) (row (r.columnName sys)) = some v := by
  unfold ValueAt at hv
  rw [if_pos hr] at hv
  rcases hv with ⟨h1, h2⟩ | ⟨k, s, h1, h2, h3⟩
  · rw [h1, h2]; rfl
  · rw [h1, h3]
    simp only [decodeCell, ofInt_key (hk k s h2), h2]

/-- A cell after both decodings. -/
theorem value_shown {before after : List (Str × Str)} {row row1 row2 : QRow} (h1 : decodeRow p kv before row = some row1) (h2 : decodeRow p kv after row1 = some row2)
    {t : Str} {r : Property} (hb : ∀ d ∈ before, d.1 = r.columnName sys → r.isDictionary = true ∧ d.2 = t)
    (ha : ∀ d ∈ after, d.1 = r.columnName sys → r.isDictionary = true ∧ d.2 = t ∧ ∀ x ∈ before, x.1 ≠ r.columnName sys)
    (hex : r.isDictionary = true → (∃ d ∈ before, d.1 = r.columnName sys) ∨ ∃ d ∈ after, d.1 = r.columnName sys)
    (hk : r.isDictionary = true → Keyed p kv t (r.columnName sys)) {v : Option Cell} (hv : ValueAt sys p kv t r row v) : row2 (r.columnName sys) = v := by
  by_cases hd : r.isDictionary = true
  · have hcell := decodeCell_value hd hv (hk hd)
    by_cases hin : ∃ d ∈ before, d.1 = r.columnName sys
    · obtain ⟨d, hm, e⟩ := hin
      have hm' : (r.columnName sys, t) ∈ before := by rw [← (hb d hm e).2, ← e]; exact hm
      have := decodeRow_col h1 hm' fun d hd e => (hb d hd e).2
      rw [hcell] at this
      rw [decodeRow_other h2 fun x hx e => (ha x hx e).2.2 d hm (by assumption)]
      exact (Option.some.inj this).symm
    · obtain ⟨d, hm, e⟩ := (hex hd).resolve_left hin
      have hm' : (r.columnName sys, t) ∈ after := by rw [← (ha d hm e).2.1, ← e]; exact hm
      have := decodeRow_col h2 hm' fun d hd e => (ha d hd e).2.1
      rw [decodeRow_other h1 fun x hx e => hin ⟨x, hx, e⟩, hcell] at this
      exact (Option.some.inj this).symm
  · rw [decodeRow_other h2 fun x hx e => hd (ha x hx e).1, decodeRow_other h1 fun x hx e => hd (hb x hx e).1]
    unfold ValueAt at hv
    rw [if_neg hd] at hv
    exact hv.symm

end OptiPrism.Platform
