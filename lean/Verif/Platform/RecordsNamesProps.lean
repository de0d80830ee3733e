import Verif.Platform.SingleProps
import Verif.Platform.FunnelAnswerProps

/-!
# Properties C133 and C139, continued: all properties, the numbers behind names, averages
-/

namespace OptiPrism.Platform

open OptiPrism.Meta (Str Kv Property propsC)
open OptiPrism.Query

variable {sys : Str → Str} {p : Nat} {kv : Kv}

/-- All properties are those of events and those of every kind of groups. -/
theorem C133_every (hl : Listed p kv) : ∃ l, allProperties p kv = .ok l ∧ ∀ r, r ∈ l ↔ ∃ ref, PropertyAt p kv ref r := by
  obtain ⟨es, he, hes⟩ := hl.events
  have hgroup : ∀ g ∈ List.range groupsCount, ∃ l, ofStore ((propsC p (.group g)).list kv) = .ok l := by
    intro g hg
    obtain ⟨l, hl, -⟩ := hl.groups g (List.mem_range.mp hg)
    exact ⟨l, by rw [hl]; rfl⟩
  obtain ⟨gs, hgs⟩ := collect_every hgroup
  have hs := collect_spec hgs
  refine ⟨es ++ gs.flatten, ?_, fun r => ?_⟩
  · unfold allProperties
    rw [he]
    show (do let gs ← collect _ _; return es ++ gs.flatten : Except QErr (List Property)) = _
    rw [hgs]
    rfl
  · rw [List.mem_append, List.mem_flatten]
    constructor
    · rintro (h | ⟨l, h1, h2⟩)
      · obtain ⟨n, h⟩ := (hes r).mp h
        exact ⟨_, h⟩
      · obtain ⟨g, hg, e⟩ := hs.2.1 l h1
        obtain ⟨l', e', h⟩ := hl.groups g (List.mem_range.mp hg)
        rw [e'] at e
        cases e
        obtain ⟨n, h⟩ := (h r).mp h2
        exact ⟨_, h⟩
    · rintro ⟨ref, h⟩
      cases ref with
      | event n => exact .inl ((hes r).mpr ⟨n, h⟩)
      | group n g =>
        have hg := hl.few n g r h
        obtain ⟨l, h1, e⟩ := hs.1 g (List.mem_range.mpr hg)
        obtain ⟨l', e', h'⟩ := hl.groups g hg
        rw [e'] at e
        cases e
        exact .inr ⟨_, h1, (h' r).mpr ⟨n, h⟩⟩
      | custom c => exact h.elim

/-- The hypothesis is met. -/
example : ∃ l, allProperties 1 recordsKv = .ok l ∧ ∀ r, r ∈ l ↔ ∃ ref, PropertyAt 1 recordsKv ref r := C133_every records_listed

/-- The name of a column: that of its property, behind it how often it has been given, from the second time on. -/
theorem newNames_nth (found : List Str) (props : List Property) {i : Nat} {r : Property} (h : props[i]? = some r) :
    ∃ x, (newNames sys found props)[i]? = some x ∧ x.1 = r.columnName sys ∧
      x.2 = if ((found ++ (props.take i).map visibleName).filter fun f => f = visibleName r).length = 0 then visibleName r
        else visibleName r ++ ' ' :: decimal (((found ++ (props.take i).map visibleName).filter fun f => f = visibleName r).length + 1) := by
  induction props generalizing found i with
  | nil => cases h
  | cons q qs ih =>
    cases i with
    | zero =>
      cases h
      refine ⟨_, rfl, rfl, ?_⟩
      rw [List.take_zero, List.map_nil, List.append_nil]
    | succ i =>
      obtain ⟨x, h1, h2, h3⟩ := ih (found ++ [visibleName q]) h
      refine ⟨x, h1, h2, ?_⟩
      rw [List.take_succ_cons, List.map_cons, show found ++ visibleName q :: (qs.take i).map visibleName = found ++ [visibleName q] ++ (qs.take i).map visibleName by simp]
      exact h3

/-- The columns of properties with the same visible name get different names, the first one that name itself. -/
theorem C133_numbered (props : List Property) {i j : Nat} (hij : i < j) {r q : Property} (hi : props[i]? = some r) (hj : props[j]? = some q)
    (he : r.displayName.getD r.name = q.displayName.getD q.name) : ∃ x y, (newNames sys [] props)[i]? = some x ∧ (newNames sys [] props)[j]? = some y ∧ x.2 ≠ y.2 ∧
      ((∀ k q', k < i → props[k]? = some q' → q'.displayName.getD q'.name ≠ r.displayName.getD r.name) → x.2 = r.displayName.getD r.name) := by
  obtain ⟨x, h1, -, h2⟩ := newNames_nth (sys := sys) [] props hi
  obtain ⟨y, h3, -, h4⟩ := newNames_nth (sys := sys) [] props hj
  rw [List.nil_append] at h2 h4
  have he : visibleName q = visibleName r := he.symm
  rw [he] at h4
  refine ⟨x, y, h1, h3, ?_, fun hn => ?_⟩
  · have hlt : (((props.take i).map visibleName).filter fun f => f = visibleName r).length < (((props.take j).map visibleName).filter fun f => f = visibleName r).length := by
      have hs : props.take j = props.take i ++ r :: (props.drop (i + 1)).take (j - (i + 1)) := by
        have hlen := (List.getElem?_eq_some_iff.mp hi).1
        conv => lhs; rw [← List.take_append_drop i props]
        rw [List.take_append, List.length_take, Nat.min_eq_left (by omega), List.take_take, Nat.min_eq_right (by omega),
          List.drop_eq_getElem_cons hlen, (List.getElem?_eq_some_iff.mp hi).2, show j - i = (j - (i + 1)) + 1 by omega, List.take_succ_cons]
      rw [hs, List.map_append, List.filter_append, List.map_cons, List.filter_cons, if_pos (by simp)]
      simp only [List.length_append, List.length_cons]
      omega
    rw [h2, h4]
    generalize (((props.take i).map visibleName).filter fun f => f = visibleName r).length = a at hlt
    generalize (((props.take j).map visibleName).filter fun f => f = visibleName r).length = b at hlt
    rw [if_neg (show ¬ b = 0 by omega)]
    by_cases h0 : a = 0
    · rw [if_pos h0]
      intro e
      have := congrArg List.length e
      simp at this
    · rw [if_neg h0]
      intro e
      have := decimal_inj (List.cons.inj (List.append_cancel_left e)).2
      omega
  · rw [h2, if_pos]
    · rfl
    · rw [List.length_eq_zero_iff, List.filter_eq_nil_iff]
      intro f hf
      obtain ⟨q', hq, rfl⟩ := List.mem_map.mp hf
      obtain ⟨k, hk, e⟩ := List.mem_take_iff_getElem.mp hq
      have := hn k q' (by omega) (by rw [← e]; exact List.getElem?_eq_getElem _)
      exact fun h => this (of_decide_eq_true h)

/-- The average time since the first step is that of the users who reached the step. -/
theorem C139_average (b : Nat → StepResult) {i : Nat} (hi : 0 < i) (ht : 0 < (b i).total) : avgFromStart b i * ((b i).total : Rat) = 100 * ((b i).fromStart : Rat) := by
  have h0 : ((b i).total : Rat) ≠ 0 := by
    intro h
    have : (b i).total = 0 := by exact_mod_cast h
    omega
  unfold avgFromStart
  rw [if_neg (by omega), if_pos ht]
  have hd : ((b i).fromStart : Rat) / ((b i).total : Rat) * ((b i).total : Rat) = (b i).fromStart := Rat.div_mul_cancel h0
  generalize ((b i).fromStart : Rat) / ((b i).total : Rat) = x at hd
  grind

def exTitled (name : Str) : Property := { Ingest.propReq .event name (.bool true) with displayName := some "Title".toList }

/-- Three properties shown under the same name. -/
example : (newNames Ingest.exSys [] [exTitled "a".toList, exTitled "b".toList, exTitled "c".toList]).map (·.2) =
    ["Title".toList, "Title 2".toList, "Title 3".toList] := by decide +kernel

end OptiPrism.Platform
