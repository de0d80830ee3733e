import Verif.Platform.ChartLemmas

/-!
# Lemmas: from the filters sent to the filters planned
-/

namespace OptiPrism.Platform

open OptiPrism.Meta (Str PropOp PropertyRef EventRef Scalar PropFilter Kv Property PropType Event propsC customC eventsC kEvents mapM_isSome)
open OptiPrism.Query
open OptiPrism.Ingest (groupCol)

variable {N : Type} {E : ReqEnv N} {sys : Str → Str} {p : Nat} {kv : Kv} {tbl : List Str}

theorem mapM_mem_iff {α β : Type} {f : α → Option β} {l : List α} {bs : List β} (h : l.mapM f = some bs) (b : β) : b ∈ bs ↔ ∃ a ∈ l, f a = some b := by
  induction l generalizing bs with
  | nil => simp at h; simp [h]
  | cons a l ih =>
    simp only [List.mapM_cons, Option.bind_eq_bind, Option.pure_def, Option.bind_eq_some_iff] at h
    obtain ⟨b', hb, bs', hbs, e⟩ := h
    cases e
    rw [List.mem_cons, ih hbs]
    constructor
    · rintro (rfl | ⟨x, hx, e⟩)
      · exact ⟨a, by simp, hb⟩
      · exact ⟨x, by simp [hx], e⟩
    · rintro ⟨x, hx, e⟩
      rcases List.mem_cons.mp hx with rfl | hx
      · rw [hb] at e; cases e; exact .inl rfl
      · exact .inr ⟨x, hx, e⟩

theorem mapM_back {α β : Type} {f : α → Option β} {l : List α} {bs : List β} (h : l.mapM f = some bs) {a : α} (ha : a ∈ l) : ∃ b ∈ bs, f a = some b := by
  induction l generalizing bs with
  | nil => simp at ha
  | cons x l ih =>
    simp only [List.mapM_cons, Option.bind_eq_bind, Option.pure_def, Option.bind_eq_some_iff] at h
    obtain ⟨b', hb, bs', hbs, e⟩ := h
    cases e
    rcases List.mem_cons.mp ha with rfl | ha
    · exact ⟨b', by simp, hb⟩
    · obtain ⟨b, hm, e⟩ := ih hbs ha
      exact ⟨b, by simp [hm], e⟩

theorem collect_total {α β : Type} {f : α → Except QErr β} (g : α → β) {l : List α} (h : ∀ a ∈ l, f a = .ok (g a)) : collect f l = .ok (l.map g) := by
  induction l with
  | nil => rfl
  | cons a l ih => simp only [collect, h a (by simp), ih fun b hb => h b (by simp [hb]), List.map_cons]

/-! ## One filter -/

/-- The value planned for one sent: a number for a time is a moment in milliseconds. -/
def sent (E : ReqEnv N) (r : Property) : JVal N → Option Scalar
  | .bool b => some (.bool (some b))
  | .str s => some (.str (some s))
  | .num n => (E.dec n).map fun (m, s) => if r.dataType = .timestamp then .timestampMs (some (m.setWidth 64)) none else .decimal (some m) reqPrecision s
  | _ => none

theorem fixed_values {r : Property} {vs : List (JVal N)} {ss : List Scalar} (hv : ∀ v ∈ vs, valFits r v = true) (h : vs.mapM (jsonToScalar E) = some ss) :
    ∃ l, collect (fixValue r ss) ss = .ok l ∧ (∀ s, s ∈ l.flatten ↔ ∃ v ∈ vs, sent E r v = some s) ∧ (l.flatten = [] → vs = []) := by
  by_cases ht : r.dataType = .timestamp
  · have hnum : ∀ v ∈ vs, ∃ n, v = .num n := by
      intro v hm
      obtain ⟨s, -, hs⟩ := mapM_back h hm
      have := hv v hm
      cases v with
      | num n => exact ⟨n, rfl⟩
      | null => cases hs
      | bool b => simp [valFits, ht] at this
      | str s => simp [valFits, ht] at this
      | arr => cases hs
      | obj => cases hs
    have hdec : ∀ s ∈ ss, ∃ m sc, s = .decimal (some m) reqPrecision sc := by
      intro s hs
      obtain ⟨v, hm, e⟩ := (mapM_mem_iff h s).mp hs
      obtain ⟨n, rfl⟩ := hnum v hm
      simp only [jsonToScalar, Option.map_eq_some_iff] at e
      obtain ⟨⟨m, sc⟩, -, e⟩ := e
      exact ⟨m, sc, e.symm⟩
    let ts : Scalar → Scalar := fun s => match s with
      | .decimal (some v) _ _ => .timestampMs (some (v.setWidth 64)) none
      | s => s
    have h1 : collect toTimestamp ss = .ok (ss.map ts) := collect_total ts fun s hs => by
      obtain ⟨m, sc, rfl⟩ := hdec s hs
      rfl
    have h2 : collect (fixValue r ss) ss = .ok (ss.map fun _ => ss.map ts) := collect_total _ fun s hs => by
      obtain ⟨m, sc, rfl⟩ := hdec s hs
      simp [fixValue, ht, Scalar.isDecimal, h1]
    refine ⟨_, h2, fun s => ?_, fun he => ?_⟩
    · simp only [List.mem_flatten, List.mem_map]
      constructor
      · rintro ⟨l, ⟨x, -, rfl⟩, hs⟩
        obtain ⟨y, hy, rfl⟩ := List.mem_map.mp hs
        obtain ⟨v, hm, e⟩ := (mapM_mem_iff h y).mp hy
        refine ⟨v, hm, ?_⟩
        obtain ⟨n, rfl⟩ := hnum v hm
        simp only [jsonToScalar, Option.map_eq_some_iff] at e
        obtain ⟨⟨m, sc⟩, e1, e2⟩ := e
        subst e2
        simp [sent, e1, ht, ts]
      · rintro ⟨v, hm, e⟩
        obtain ⟨y, hy, e'⟩ := mapM_back h hm
        refine ⟨_, ⟨y, hy, rfl⟩, List.mem_map.mpr ⟨y, hy, ?_⟩⟩
        obtain ⟨n, rfl⟩ := hnum v hm
        simp only [jsonToScalar, Option.map_eq_some_iff] at e'
        obtain ⟨⟨m, sc⟩, e1, e2⟩ := e'
        subst e2
        simp [sent, e1, ht] at e
        simp [ts, e]
    · cases ss with
      | nil => exact (mapM_nil_iff h).mp rfl
      | cons a l => simp at he
  · have h2 : collect (fixValue r ss) ss = .ok (ss.map fun s => [s]) := collect_total _ fun s _ => by simp [fixValue, ht]
    refine ⟨_, h2, fun s => ?_, fun he => ?_⟩
    · have hs : ∀ v, sent E r v = jsonToScalar E v := by intro v; cases v <;> simp [sent, jsonToScalar, ht]
      simp only [hs, ← mapM_mem_iff h, List.mem_flatten, List.mem_map]
      constructor
      · rintro ⟨_, ⟨x, hx, rfl⟩, hm⟩
        rw [List.mem_singleton.mp hm]
        exact hx
      · exact fun hx => ⟨[s], ⟨s, hx, rfl⟩, by simp⟩
    · cases ss with
      | nil => exact (mapM_nil_iff h).mp rfl
      | cons a l => simp at he

theorem validFilter_ok {f : JFilter N} (h : validateFilter p kv f = .ok ()) :
    ∃ r, (∀ c, findProp c p kv (propIn f.property) = .ok r) ∧ opFits r f.op = true ∧ valuesFit r f.op f.value = true := by
  obtain ⟨r, h1, h2⟩ := bind_ok h
  obtain ⟨u, h3, h4⟩ := bind_ok h2
  exact ⟨r, (findProp_ok (refused_ok h1)).2, require_ok h3, require_ok h4⟩

/-- The filter planned for a valid one. -/
theorem fixed_filter {f : JFilter N} (h : validateFilter p kv f = .ok ()) {f' : PropFilter} (hf : filterIn E f = some f') :
    ∃ r vs, (∀ c, findProp c p kv (propIn f.property) = .ok r) ∧ opFits r f.op = true ∧ valuesFit r f.op f.value = true ∧
      fixFilter p kv f' = .ok ⟨propIn f.property, opIn f.op, some vs⟩ ∧
      (∀ s, s ∈ vs ↔ ∃ v ∈ f.value.getD [], sent E r v = some s) ∧ (vs = [] → f.value.getD [] = []) := by
  obtain ⟨r, h1, h2, h3⟩ := validFilter_ok h
  simp only [filterIn, Option.bind_eq_bind, Option.pure_def, Option.bind_eq_some_iff] at hf
  obtain ⟨value, hv, e⟩ := hf
  cases e
  have hs : ∃ ss, value.getD [] = ss ∧ (f.value.getD []).mapM (jsonToScalar E) = some ss := by
    cases hx : f.value with
    | none => rw [hx] at hv; cases hv; exact ⟨[], rfl, rfl⟩
    | some l =>
      rw [hx] at hv
      cases l with
      | nil => cases hv; exact ⟨[], rfl, rfl⟩
      | cons a l =>
        simp only [dropEmpty, Option.map_eq_some_iff] at hv
        obtain ⟨ss, e1, rfl⟩ := hv
        exact ⟨ss, rfl, e1⟩
  obtain ⟨ss, e1, e2⟩ := hs
  have hall : ∀ v ∈ f.value.getD [], valFits r v = true := by
    intro v hm
    cases hx : f.value with
    | none => rw [hx] at hm; simp at hm
    | some l =>
      rw [hx] at hm h3
      simp only [valuesFit, Bool.and_eq_true, List.all_eq_true] at h3
      exact h3.2 v hm
  obtain ⟨l, g1, g2, g3⟩ := fixed_values hall e2
  refine ⟨r, l.flatten, h1, h2, h3, ?_, g2, g3⟩
  unfold fixFilter
  dsimp only
  rw [h1, e1]
  show (do let vs ← collect (fixValue r ss) ss; pure _) = _
  rw [g1]
  rfl

end OptiPrism.Platform
