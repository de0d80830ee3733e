import Verif.Platform.ChartMeaning
import Verif.Platform.ChartProps

/-!
# The small store of the examples, looked into
-/

namespace OptiPrism.Platform

open OptiPrism.Meta (Str PropOp PropertyRef EventRef Scalar PropFilter Kv Property PropType Event propsC customC eventsC kEvents dictGetValue dictGetKey)
open OptiPrism.Query
open OptiPrism.Ingest (groupCol dictRoom dictCell)

/-- What is found is at one of the keys of the store. -/
theorem getK_key {kv : Kv} {k : Meta.Key} {b : Storage.Bytes} (h : Meta.getK kv k = some b) (hk : k.WF) : some k ∈ kv.map fun e => Meta.parseKey e.1 := by
  unfold Meta.getK Meta.Kv.get at h
  cases hf : kv.find? (fun e => e.1 = k.render) with
  | none => rw [hf] at h; cases h
  | some e =>
    have h1 := List.mem_of_find?_eq_some hf
    have h2 := List.find?_some hf
    simp only [decide_eq_true_eq] at h2
    refine List.mem_map.mpr ⟨e, h1, ?_⟩
    rw [h2, Meta.parse_render k hk]

def demoKeys : List (Option Meta.Key) := demoKv.map fun e => Meta.parseKey e.1

/-- The property `city` as stored. -/
def cityAt : Property := { cityProp with id := 1, createdAt := ⟨7, 0⟩, projectId := 1 }

/-- The property `when` as stored. -/
def whenAt : Property := { whenProp with id := 2, createdAt := ⟨7, 0⟩, projectId := 1 }

/-- The names in the store. -/
def demoName : Option Meta.Key → Bool
  | some (.idx (.proj 1 .eventProps) .name n) => n = "city".toList || n = "when".toList
  | some (.idx (.proj 1 (.groupProps _)) .name _) => false
  | some (.idx (.proj 1 .events) .name n) => n = "buy".toList
  | some (.dictVal 1 _ d s) => d ≠ "e_str_0".toList || s = "Rome".toList
  | some (.dictKey 1 _ d k) => d ≠ "e_str_0".toList || k = 1
  | _ => true

theorem demo_names : ∀ k ∈ demoKeys, demoName k = true := by decide +kernel

theorem ok_of {α : Type} {x : Except Meta.Err α} {a : α} (h : x.toOption = some a) : x = .ok a := by
  cases x with
  | error e => cases h
  | ok b => cases h; rfl

theorem city_at : (propsC 1 .event).getBy .name "city".toList demoKv = .ok cityAt := ok_of (by decide +kernel)
theorem when_at : (propsC 1 .event).getBy .name "when".toList demoKv = .ok whenAt := ok_of (by decide +kernel)
theorem buy_at : (eventsC 1).getBy .name "buy".toList demoKv = .ok { buyEvent with id := 1, createdAt := ⟨7, 0⟩, projectId := 1 } := ok_of (by decide +kernel)

theorem demo_prop {ref : JPropertyRef} {r : Property} (h : PropertyAt 1 demoKv ref r) : r = cityAt ∨ r = whenAt := by
  have key : ∀ ty n, (propsC 1 ty).getBy .name n demoKv = .ok r → ∃ b, Meta.getK demoKv (.idx (.proj 1 ty.coll) .name n) = some b := by
    intro ty n hg
    unfold Meta.Coll.getBy Meta.getIndex at hg
    cases hb : Meta.getK demoKv (.idx (propsC 1 ty).ns .name n) with
    | none => rw [hb] at hg; cases hg
    | some b => exact ⟨b, hb⟩
  cases ref with
  | event n =>
    obtain ⟨b, hb⟩ := key _ n h
    have := demo_names _ (getK_key hb trivial)
    simp only [Meta.PropType.coll, demoName, Bool.or_eq_true, decide_eq_true_eq] at this
    rcases this with rfl | rfl
    · exact .inl (Except.ok.inj (Eq.trans (Eq.symm h) city_at))
    · exact .inr (Except.ok.inj (Eq.trans (Eq.symm h) when_at))
  | group n g =>
    obtain ⟨b, hb⟩ := key _ n h
    have := demo_names _ (getK_key hb trivial)
    cases this
  | custom => exact absurd h id

theorem demo_dictionaries : Dictionaries 1 demoKv := by
  intro ref r h
  rcases demo_prop h with rfl | rfl <;> decide

theorem demo_event {n : Str} {ev : Event} (h : (eventsC 1).getBy .name n demoKv = .ok ev) : n = "buy".toList ∧ ev.id = 1 := by
  have : ∃ b, Meta.getK demoKv (.idx (.proj 1 .events) .name n) = some b := by
    unfold Meta.Coll.getBy Meta.getIndex at h
    cases hb : Meta.getK demoKv (.idx (eventsC 1).ns .name n) with
    | none => rw [hb] at h; cases h
    | some b => exact ⟨b, hb⟩
  obtain ⟨b, hb⟩ := this
  have := demo_names _ (getK_key hb trivial)
  simp only [demoName, decide_eq_true_eq] at this
  subst this
  have := buy_at ▸ h
  injection this with e
  exact ⟨rfl, by rw [← e]⟩

theorem demo_coded (t : Str) (ht : t = kEvents) : Coded 1 t "e_str_0".toList demoKv .int64 := by
  subst ht
  have w : '/' ∉ kEvents ∧ '/' ∉ "e_str_0".toList := by decide +kernel
  have e1 : dictGetKey 1 kEvents "e_str_0".toList "Rome".toList demoKv = .ok 1 := ok_of (by decide +kernel)
  have e2 : dictGetValue 1 kEvents "e_str_0".toList 1 demoKv = .ok "Rome".toList := ok_of (by decide +kernel)
  have k1 : ∀ s k, dictGetKey 1 kEvents "e_str_0".toList s demoKv = .ok k → s = "Rome".toList ∧ k = 1 := by
    intro s k h
    cases hb : Meta.getK demoKv (.dictVal 1 kEvents "e_str_0".toList s) with
    | none => unfold dictGetKey at h; rw [hb] at h; cases h
    | some b =>
      have := demo_names _ (getK_key hb w)
      simp only [demoName, ne_eq, not_true_eq_false, decide_false, Bool.false_or, decide_eq_true_eq] at this
      subst this
      rw [e1] at h
      cases h
      exact ⟨rfl, rfl⟩
  have k2 : ∀ s k, dictGetValue 1 kEvents "e_str_0".toList k demoKv = .ok s → s = "Rome".toList ∧ k = 1 := by
    intro s k h
    cases hb : Meta.getK demoKv (.dictKey 1 kEvents "e_str_0".toList k) with
    | none => unfold dictGetValue at h; rw [hb] at h; cases h
    | some b =>
      have := demo_names _ (getK_key hb w)
      simp only [demoName, ne_eq, not_true_eq_false, decide_false, Bool.false_or, decide_eq_true_eq] at this
      subst this
      rw [e2] at h
      cases h
      exact ⟨rfl, rfl⟩
  refine ⟨fun s k => ⟨fun h => ?_, fun h => ?_⟩, fun s k h => ?_⟩
  · obtain ⟨rfl, rfl⟩ := k1 s k h; exact e2
  · obtain ⟨rfl, rfl⟩ := k2 s k h; exact e1
  · obtain ⟨rfl, rfl⟩ := k1 s k h; exact ⟨by decide, by decide⟩

/-- A row of the project and event, five milliseconds ago. -/
def demoRow (city : Option Int) (when_ : Option Int) : QRow := fun c =>
  if c = "project_id".toList then some (.int 1)
  else if c = "created_at".toList then some (.ts (-5))
  else if c = "event".toList then some (.int 1)
  else if c = "e_str_0".toList then city.map .int
  else if c = "e_ts_0".toList then when_.map .ts
  else none

end OptiPrism.Platform
