import Verif.Platform.RecordsAnswer
import Verif.Platform.ChartDemo

/-!
# The columns of the answer to a search
-/

namespace OptiPrism.Platform

open OptiPrism.Meta (Str PropOp PropertyRef EventRef Scalar PropFilter Kv Property PropType Event propsC customC eventsC kEvents dictGetValue dictGetKey)
open OptiPrism.Query
open OptiPrism.Ingest (groupCol)

variable {N : Type} {E : ReqEnv N} {sys : Str → Str} {p : Nat} {kv : Kv}

/-- One for one. -/
def Pairs {α β : Type} (R : α → β → Prop) : List α → List β → Prop
  | [], [] => True
  | a :: as, b :: bs => R a b ∧ Pairs R as bs
  | _, _ => False

theorem pairs_map {α β : Type} {R : α → β → Prop} {f : α → β} {l : List α} (h : ∀ a ∈ l, R a (f a)) : Pairs R l (l.map f) := by
  induction l with
  | nil => trivial
  | cons a l ih => exact ⟨h a (by simp), ih fun x hx => h x (List.mem_cons_of_mem _ hx)⟩

/-- Properties are stored as what they are. -/
def Typed (p : Nat) (kv : Kv) : Prop :=
  ∀ ref r, PropertyAt p kv ref r → ref = (match r.typ with | .event => .event r.name | .group g => .group r.name g)

theorem Typed.reference (h : Typed p kv) {ref : JPropertyRef} {r : Property} (hr : PropertyAt p kv ref r) : Platform.reference r = propIn ref := by
  have := h ref r hr
  unfold Platform.reference
  cases ht : r.typ <;> rw [ht] at this <;> rw [this] <;> rfl

theorem Typed.table (h : Typed p kv) {ref : JPropertyRef} {r : Property} (hr : PropertyAt p kv ref r) : eventTable r = tableAt ref := by
  have := h ref r hr
  unfold eventTable
  cases ht : r.typ <;> rw [ht] at this <;> rw [this] <;> rfl

/-- The name of a column: that of the property, with a number if it is not the first of the name. -/
def NameFits (r : Property) (n : Str) : Prop := n = r.displayName.getD r.name ∨ ∃ k, 2 ≤ k ∧ n = r.displayName.getD r.name ++ ' ' :: decimal k

theorem mem_decodedAfter {t : Property → Str} {before shown : List Str} {props : List Property} {d : Str × Str} :
    d ∈ decodedAfter sys t before shown props ↔ ∃ r ∈ props, r.isDictionary = true ∧ r.columnName sys ∉ before ∧ d = (r.columnName sys, t r) ∧ d.1 ∈ shown := by
  unfold decodedAfter
  simp only [List.mem_filter, List.mem_map, List.contains_eq_mem, decide_eq_true_eq, Bool.and_eq_true, Bool.not_eq_true', decide_eq_false_iff_not]
  constructor
  · rintro ⟨⟨r, ⟨h1, h2, h3⟩, h4⟩, h5⟩; exact ⟨r, h1, h2, h3, h4.symm, h5⟩
  · rintro ⟨r, h1, h2, h3, h4, h5⟩; exact ⟨⟨r, ⟨h1, h2, h3⟩, h4.symm⟩, h5⟩

theorem answer_columns (c : RecordsPlan) (t : Property → Str) (hshown : c.shown = c.props.map fun r => r.columnName sys)
    (hnd : (c.props.map fun r => r.columnName sys).Nodup) (hnames : namedColumns sys c.shown c.props = .ok c.names)
    (hafter : c.after = decodedAfter sys t (c.decoded.map (·.1)) c.shown c.props)
    (hb : ∀ r ∈ c.props, ∀ d ∈ c.decoded, d.1 = r.columnName sys → r.isDictionary = true ∧ d.2 = t r)
    (hk : ∀ r ∈ c.props, r.isDictionary = true → Keyed p kv (t r) (r.columnName sys)) {L : List QRow}
    (hL : ∀ row ∈ L, decodeRow p kv c.decoded row = some (decodedAs p kv c.decoded row) ∧ ∀ r ∈ c.props, ∃ v, ValueAt sys p kv (t r) r row v) :
    ∃ cs : List RecordColumn, ((decodeRows p kv c.after (L.map (decodedAs p kv c.decoded))).bind fun x => (labelled c x).map emptied) = some cs ∧ (L = [] → cs = []) ∧
      (L ≠ [] → cs.length = c.props.length ∧ (cs.map (·.name)).Nodup ∧ ∀ (i : Nat) (r : Property), c.props[i]? = some r → ∃ x : RecordColumn, cs[i]? = some x ∧ x.property = reference r ∧
        NameFits r x.name ∧ Pairs (ValueAt sys p kv (t r) r) L x.data) := by
  obtain ⟨n1, n2⟩ := namedColumns_ok hnames
  have inj : ∀ r ∈ c.props, ∀ r' ∈ c.props, r.columnName sys = r'.columnName sys → r = r' := by
    intro r hr r' hr' e
    obtain ⟨i, hi⟩ := List.getElem?_of_mem hr
    obtain ⟨j, hj⟩ := List.getElem?_of_mem hr'
    obtain ⟨hi1, hi2⟩ := List.getElem?_eq_some_iff.mp hi
    obtain ⟨hj1, hj2⟩ := List.getElem?_eq_some_iff.mp hj
    have : i = j := (List.getElem_inj (h₀ := by simpa using hi1) (h₁ := by simpa using hj1) hnd).mp (by simp only [List.getElem_map, hi2, hj2]; exact e)
    subst this
    rw [← hi2, ← hj2]
  have ha : ∀ r ∈ c.props, ∀ d ∈ c.after, d.1 = r.columnName sys → r.isDictionary = true ∧ d.2 = t r ∧ ∀ x ∈ c.decoded, x.1 ≠ r.columnName sys := by
    intro r hr d hd e
    rw [hafter] at hd
    obtain ⟨r', h1, h2, h3, rfl, -⟩ := mem_decodedAfter.mp hd
    cases inj r' h1 r hr e
    exact ⟨h2, rfl, fun x hx e => h3 (e ▸ List.mem_map.mpr ⟨x, hx, rfl⟩)⟩
  have hex : ∀ r ∈ c.props, r.isDictionary = true → (∃ d ∈ c.decoded, d.1 = r.columnName sys) ∨ ∃ d ∈ c.after, d.1 = r.columnName sys := by
    intro r hr hd
    by_cases hin : r.columnName sys ∈ c.decoded.map (·.1)
    · obtain ⟨d, h1, h2⟩ := List.mem_map.mp hin
      exact .inl ⟨d, h1, h2⟩
    · refine .inr ⟨(r.columnName sys, t r), ?_, rfl⟩
      rw [hafter]
      exact mem_decodedAfter.mpr ⟨r, hr, hd, hin, rfl, by rw [hshown]; exact List.mem_map.mpr ⟨r, hr, rfl⟩⟩
  have dec : ∀ row ∈ L, decodeRow p kv c.after (decodedAs p kv c.decoded row) = some (decodedAs p kv c.after (decodedAs p kv c.decoded row)) := by
    intro row hrow
    obtain ⟨h1, h2⟩ := hL row hrow
    have : ∃ row', decodeRow p kv c.after (decodedAs p kv c.decoded row) = some row' := by
      refine decodeRow_some fun d hd => ?_
      have hd' := hd
      rw [hafter] at hd'
      obtain ⟨r, hr, hdict, hnot, rfl, -⟩ := mem_decodedAfter.mp hd'
      obtain ⟨v, hv⟩ := h2 r hr
      refine ⟨v, ?_⟩
      dsimp only
      rw [decodeRow_other h1 (c := r.columnName sys) fun x hx e => hnot (e ▸ List.mem_map.mpr ⟨x, hx, rfl⟩)]
      exact decodeCell_value hdict hv (hk r hr hdict)
    obtain ⟨row', h⟩ := this
    unfold decodedAs at h ⊢
    rw [h]
    rfl
  have hrows : decodeRows p kv c.after (L.map (decodedAs p kv c.decoded)) = some ((L.map (decodedAs p kv c.decoded)).map (decodedAs p kv c.after)) := by
    refine mapM_of fun row hrow => ?_
    obtain ⟨row0, h1, rfl⟩ := List.mem_map.mp hrow
    exact dec row0 h1
  have hlen : c.names.length = c.shown.length := by rw [n1]; simp
  have hlen' : c.shown.length = c.props.length := by rw [hshown]; simp
  obtain ⟨cs, k1, k2, k3⟩ := labelled_at c hlen (by omega) ((L.map (decodedAs p kv c.decoded)).map (decodedAs p kv c.after))
  have at_ : ∀ (i : Nat) (r : Property), c.props[i]? = some r → ∃ x : RecordColumn, cs[i]? = some x ∧ x.property = reference r ∧
        NameFits r x.name ∧ Pairs (ValueAt sys p kv (t r) r) L x.data := by
    intro i r hi
    have hlt := (List.getElem?_eq_some_iff.mp hi).1
    have hx := List.getElem?_eq_getElem (l := cs) (i := i) (by omega)
    obtain ⟨r', s, n, g1, g2, g3, g4⟩ := k3 i _ hx
    rw [hi] at g1
    cases g1
    have hs : s = r.columnName sys := by
      rw [hshown, List.getElem?_map, hi] at g2
      exact (Option.some.inj g2).symm
    have hn : n = renamed (newNames sys [] c.props) (r.columnName sys) := by
      rw [n1, List.getElem?_map, g2] at g3
      rw [← Option.some.inj g3, hs]
    refine ⟨_, hx, by rw [g4], ?_, ?_⟩
    · rw [g4]
      dsimp only
      rw [hn]
      exact renamed_at hnd hi
    · rw [g4]
      dsimp only
      rw [List.map_map, List.map_map]
      refine pairs_map fun row hrow => ?_
      obtain ⟨h1, h2⟩ := hL row hrow
      have hr := List.mem_of_getElem? hi
      obtain ⟨v, hv⟩ := h2 r hr
      have := value_shown h1 (dec row hrow) (hb r hr) (ha r hr) (hex r hr) (hk r hr) hv
      simp only [Function.comp, hs, this]
      exact hv
  rw [hrows]
  simp only [Option.bind_some, k1, Option.map_some]
  refine ⟨_, rfl, ?_, ?_⟩
  · rintro rfl
    cases cs with
    | nil => rfl
    | cons x cs =>
      obtain ⟨r, s, n, -, -, -, e⟩ := k3 0 x rfl
      rw [e]
      rfl
  · intro hne
    have hem : emptied cs = cs := by
      cases cs with
      | nil => rfl
      | cons x cs =>
        obtain ⟨r, s, n, -, -, -, e⟩ := k3 0 x rfl
        unfold emptied
        dsimp only
        rw [if_neg]
        rw [e]
        simp [hne]
    rw [hem]
    refine ⟨by omega, ?_, at_⟩
    have : cs.map (·.name) = c.names := by
      apply List.ext_getElem?
      intro i
      rw [List.getElem?_map]
      cases hx : cs[i]? with
      | none =>
        rw [List.getElem?_eq_none_iff] at hx
        rw [List.getElem?_eq_none (by omega)]
        rfl
      | some x =>
        obtain ⟨r, s, n, -, -, g3, g4⟩ := k3 i x hx
        rw [g3, g4]
        rfl
    rw [this]
    exact n2

/-! ## Small stores -/

/-- Every property of the store, found by its name, passes the test. -/
def propsPass (p : Nat) (kv : Kv) (P : PropType → Str → Property → Bool) : Bool :=
  (kv.map fun e => Meta.parseKey e.1).all fun k => match k with
    | some (.idx (.proj q .eventProps) .name n) => q ≠ p || match (propsC p .event).getBy .name n kv with
      | .ok r => P .event n r
      | _ => true
    | some (.idx (.proj q (.groupProps g)) .name n) => q ≠ p || match (propsC p (.group g)).getBy .name n kv with
      | .ok r => P (.group g) n r
      | _ => true
    | _ => true

theorem props_pass {P : PropType → Str → Property → Bool} (h : propsPass p kv P = true) {ty : PropType} {n : Str} {r : Property}
    (hg : (propsC p ty).getBy .name n kv = .ok r) : P ty n r = true := by
  have key : ∃ b, Meta.getK kv (.idx (.proj p ty.coll) .name n) = some b := by
    have hg' := hg
    unfold Meta.Coll.getBy Meta.getIndex at hg'
    cases hb : Meta.getK kv (.idx (propsC p ty).ns .name n) with
    | none => rw [hb] at hg'; cases hg'
    | some b => exact ⟨b, hb⟩
  obtain ⟨b, hb⟩ := key
  have hm := getK_key hb trivial
  have := List.all_eq_true.mp h _ hm
  cases ty <;> simpa [Meta.PropType.coll, hg] using this

/-- The test of a whole reference. -/
theorem propertyAt_pass {P : PropType → Str → Property → Bool} (h : propsPass p kv P = true) {ref : JPropertyRef} {r : Property} (hr : PropertyAt p kv ref r) :
    match ref with | .event n => P .event n r = true | .group n g => P (.group g) n r = true | .custom _ => False := by
  cases ref with
  | event n => exact props_pass h hr
  | group n g => exact props_pass h hr
  | custom i => exact hr

/-- Properties are typed, and dictionaries are dictionaries. -/
def soundProp (ty : PropType) (n : Str) (r : Property) : Bool :=
  r.typ = ty && r.name = n && (r.isDictionary = r.dictType.isSome) && (!r.isDictionary || r.dataType = .string)

theorem sound_typed (h : propsPass p kv soundProp = true) : Typed p kv ∧ Dictionaries p kv := by
  have key : ∀ ref r, PropertyAt p kv ref r → ref = (match r.typ with | .event => .event r.name | .group g => .group r.name g) ∧
      r.isDictionary = r.dictType.isSome ∧ (r.isDictionary = true → r.dataType = .string) := by
    intro ref r hr
    have := propertyAt_pass h hr
    cases ref with
    | custom i => exact absurd this id
    | event n =>
      simp only [soundProp, Bool.and_eq_true, decide_eq_true_eq] at this
      obtain ⟨⟨⟨h1, h2⟩, h3⟩, h4⟩ := this
      refine ⟨by rw [h1, h2], h3, fun hd => ?_⟩
      simpa [hd] using h4
    | group n g =>
      simp only [soundProp, Bool.and_eq_true, decide_eq_true_eq] at this
      obtain ⟨⟨⟨h1, h2⟩, h3⟩, h4⟩ := this
      refine ⟨by rw [h1, h2], h3, fun hd => ?_⟩
      simpa [hd] using h4
  exact ⟨fun ref r hr => (key ref r hr).1, fun ref r hr => (key ref r hr).2⟩

end OptiPrism.Platform
