import Verif.Platform.RecordsColumns
import Verif.Platform.ChartRowsProps

/-!
# An example store for searches

Small stores are checked by looking at all their keys.
-/

namespace OptiPrism.Platform

open OptiPrism.Meta (Str PropOp PropertyRef EventRef Scalar PropFilter Kv Property PropType Event propsC customC eventsC kEvents dictGetValue dictGetKey)
open OptiPrism.Query
open OptiPrism.Ingest (groupCol)

/-! ## Checks -/

/-- The dictionaries of the project are intact, as far as the keys of the store go. -/
def codedPass (p : Nat) (kv : Kv) : Bool :=
  (kv.map fun e => Meta.parseKey e.1).all fun k => match k with
    | some (.dictVal q t d s) => q ≠ p || match dictGetKey p t d s kv with
      | .ok k => (dictGetValue p t d k kv).toOption == some s && decide (k < 100)
      | _ => true
    | some (.dictKey q t d k) => q ≠ p || match dictGetValue p t d k kv with
      | .ok s => (dictGetKey p t d s kv).toOption == some k
      | _ => true
    | _ => true

theorem coded_pass {p : Nat} {kv : Kv} (h : codedPass p kv = true) {t d : Str} (ht : '/' ∉ t ∧ '/' ∉ d) (dt : Meta.DictType) : Coded p t d kv dt := by
  have a : ∀ s k, dictGetKey p t d s kv = .ok k → dictGetValue p t d k kv = .ok s ∧ k < 100 := by
    intro s k hk
    cases hb : Meta.getK kv (.dictVal p t d s) with
    | none => unfold dictGetKey at hk; rw [hb] at hk; cases hk
    | some b =>
      have := List.all_eq_true.mp h _ (getK_key hb ht)
      simp only [ne_eq, not_true_eq_false, decide_false, Bool.false_or, hk, Bool.and_eq_true, decide_eq_true_eq, beq_iff_eq] at this
      exact ⟨ok_of this.1, this.2⟩
  have b : ∀ s k, dictGetValue p t d k kv = .ok s → dictGetKey p t d s kv = .ok k := by
    intro s k hk
    cases hb : Meta.getK kv (.dictKey p t d k) with
    | none => unfold dictGetValue at hk; rw [hb] at hk; cases hk
    | some b =>
      have := List.all_eq_true.mp h _ (getK_key hb ht)
      simp only [ne_eq, not_true_eq_false, decide_false, Bool.false_or, hk, beq_iff_eq] at this
      exact ok_of this
  refine ⟨fun s k => ⟨fun h => (a s k h).1, b s k⟩, fun s k h => ?_⟩
  have := (a s k h).2
  have hr : 100 ≤ Ingest.dictRoom dt := by cases dt <;> decide
  omega

/-- The events of the project pass. -/
def eventsPass (p : Nat) (kv : Kv) (P : Str → Event → Bool) : Bool :=
  (kv.map fun e => Meta.parseKey e.1).all fun k => match k with
    | some (.idx (.proj q .events) .name n) => q ≠ p || match (eventsC p).getBy .name n kv with
      | .ok r => P n r
      | _ => true
    | _ => true

theorem events_pass {p : Nat} {kv : Kv} {P : Str → Event → Bool} (h : eventsPass p kv P = true) {n : Str} {r : Event}
    (hg : (eventsC p).getBy .name n kv = .ok r) : P n r = true := by
  have key : ∃ b, Meta.getK kv (.idx (.proj p .events) .name n) = some b := by
    have hg' := hg
    unfold Meta.Coll.getBy Meta.getIndex at hg'
    cases hb : Meta.getK kv (.idx (eventsC p).ns .name n) with
    | none => rw [hb] at hg'; cases hg'
    | some b => exact ⟨b, hb⟩
  obtain ⟨b, hb⟩ := key
  have := List.all_eq_true.mp h _ (getK_key hb trivial)
  simpa [hg] using this

/-! ## The store -/

def eventIdProp : Property :=
  ⟨0, ⟨0, 0⟩, 1, none, none, 0, none, "event_id".toList, some "Event ID".toList, none, 0, .event, .int64, .enabled, true, false, false, false, false, none⟩

/-- The example store with the number of the event. -/
def recordsKv : Kv := (Meta.runCall (Meta.propCreate id 1 .event ⟨7, 0⟩ eventIdProp (.ok ())) demoKv).2

def eventIdAt : Property := { eventIdProp with id := 3, createdAt := ⟨7, 0⟩, projectId := 1 }

def recordsCols : List Str := demoCols ++ ["event_id".toList]

/-- A row with the number of the event. -/
def recordsRow (i : Int) (city : Option Int) (when_ : Option Int) : QRow := fun c =>
  if c = "event_id".toList then some (.int i) else demoRow city when_ c

theorem records_sound : propsPass 1 recordsKv soundProp = true := by decide +kernel

theorem records_typed : Typed 1 recordsKv := (sound_typed records_sound).1

theorem records_dictionaries : Dictionaries 1 recordsKv := (sound_typed records_sound).2

theorem records_codes : codedPass 1 recordsKv = true := by decide +kernel

theorem records_events {n : Str} {ev : Event} (h : (eventsC 1).getBy .name n recordsKv = .ok ev) : ev.id < 2 ^ 63 := by
  have : eventsPass 1 recordsKv (fun _ e => decide (e.id < 100)) = true := by decide +kernel
  have := of_decide_eq_true (events_pass this h)
  omega

theorem records_city : (propsC 1 .event).getBy .name "city".toList recordsKv = .ok cityAt := ok_of (by decide +kernel)
theorem records_when : (propsC 1 .event).getBy .name "when".toList recordsKv = .ok whenAt := ok_of (by decide +kernel)
theorem records_id : (propsC 1 .event).getBy .name "event_id".toList recordsKv = .ok eventIdAt := ok_of (by decide +kernel)

/-- The properties of the store. -/
def recordsProp (ty : PropType) (n : Str) (r : Property) : Bool :=
  ty = .event && ((n = "city".toList && r = cityAt) || (n = "when".toList && r = whenAt) || (n = "event_id".toList && r = eventIdAt))

theorem records_prop {ref : JPropertyRef} {r : Property} (h : PropertyAt 1 recordsKv ref r) :
    (ref = .event "city".toList ∧ r = cityAt) ∨ (ref = .event "when".toList ∧ r = whenAt) ∨ (ref = .event "event_id".toList ∧ r = eventIdAt) := by
  have hp : propsPass 1 recordsKv recordsProp = true := by decide +kernel
  have := propertyAt_pass hp h
  cases ref with
  | custom i => exact absurd this id
  | event n =>
    simp only [recordsProp, Bool.and_eq_true, Bool.or_eq_true, decide_eq_true_eq] at this
    obtain ⟨-, (⟨rfl, rfl⟩ | ⟨rfl, rfl⟩) | ⟨rfl, rfl⟩⟩ := this
    · exact .inl ⟨rfl, rfl⟩
    · exact .inr (.inl ⟨rfl, rfl⟩)
    · exact .inr (.inr ⟨rfl, rfl⟩)
  | group n g =>
    simp only [recordsProp, Bool.and_eq_true, decide_eq_true_eq] at this
    cases this.1

end OptiPrism.Platform
