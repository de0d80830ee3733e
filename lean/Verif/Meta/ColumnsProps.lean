import Verif.Meta.Columns
import Verif.Meta.SystemProps

/-!
# C40: no two live properties of a project write to the same table column
-/

namespace OptiPrism.Meta

variable {Q : Type}

theorem CHist.of_run (E : Env Q) (rs : List (Req Q)) (h : ∀ r ∈ rs, r.Ok ∧ r.keepsColumns) : CHist E rs.length (runReqs E rs []) := by
  have key : ∀ (rs : List (Req Q)) (n : Nat) (kv : Kv), (∀ r ∈ rs, r.Ok ∧ r.keepsColumns) → CHist E n kv → CHist E (n + rs.length) (runReqs E rs kv) := by
    intro rs
    induction rs with
    | nil => intro n kv _ h; exact h
    | cons r rs ih =>
      intro n kv h hh
      have := ih (n + 1) (r.exec E kv) (fun x hx => h x (by simp [hx])) (hh.step r (h r (by simp)).1 (h r (by simp)).2)
      rw [List.length_cons, show n + (rs.length + 1) = n + 1 + rs.length by omega]
      exact this
  have := key rs 0 [] h .start
  rwa [Nat.zero_add] at this

/-- C40, for the histories the platform produces (no update of the data type) and properties that are not
system properties. The two may belong to different collections (event properties, any group).

Missing: updates of the data type (`C40_violated`) and system properties (`C40_system_violated`). -/
theorem C40_partial {E : Env Q} {n : Nat} {kv : Kv} (h : CHist E n kv) (hn : n < 2 ^ 62) {p : Nat} {ty ty' : PropType} {id id' : Nat}
    {r r' : Property} (h1 : (propsC p ty).getById id kv = .ok r) (h2 : (propsC p ty').getById id' kv = .ok r')
    (s1 : r.isSystem = false) (s2 : r'.isSystem = false) (e : r.columnName E.sys = r'.columnName E.sys) : ty = ty' ∧ id = id' := by
  have live : ∀ ty id r, (propsC p ty).getById id kv = .ok r → (propsC p ty).live kv id = some r := by
    intro ty id r hg
    rw [getById_eq ((hist_props h.hist hn p ty).inv (props_ok p ty))] at hg
    cases hl : (propsC p ty).live kv id with
    | none => rw [hl] at hg; cases hg
    | some x => rw [hl] at hg; cases hg; rfl
  have l1 := live _ _ _ h1
  have l2 := live _ _ _ h2
  have hi := h.order hn p
  obtain ⟨sh1, a1, -⟩ := hi.lt _ _ _ l1
  obtain ⟨sh2, a2, -⟩ := hi.lt _ _ _ l2
  obtain ⟨c1, c2⟩ := columnName_inj s1 s2 e
  rw [a1, a2] at c1
  simp only [Option.getD_some] at c1
  subst c1
  exact hi.inj _ _ _ _ _ _ l1 l2 (shortName_inj a1 a2) c2

/-- System properties of one collection: distinct as far as the snake-case conversion keeps names apart. -/
theorem C40_system_partial {E : Env Q} {n : Nat} {kv : Kv} (h : Hist E n kv) (hn : n < 2 ^ 62) {p : Nat} {ty : PropType} {id id' : Nat}
    {r r' : Property} (h1 : (propsC p ty).getById id kv = .ok r) (h2 : (propsC p ty).getById id' kv = .ok r')
    (s1 : r.isSystem = true) (s2 : r'.isSystem = true) (hs : E.sys r.name = E.sys r'.name → r.name = r'.name)
    (e : r.columnName E.sys = r'.columnName E.sys) : id = id' := by
  unfold Property.columnName at e
  rw [if_pos s1, if_pos s2] at e
  exact C27_distinct (props_ok p ty) (hist_props h hn p ty) (i := (.name, fun r => some r.name)) (by simp [propsC]) h1 h2 rfl
    (congrArg some (hs e).symm)

def exProp (name : Str) (ty : PropType) (d : DType) (system : Bool) : Property :=
  ⟨0, ⟨0, 0⟩, 1, none, none, 0, none, name, none, none, 0, ty, d, .enabled, system, true, false, false, false, none⟩

def exPA : Str := "a".toList
def exPB : Str := "b".toList
def exP1 : Req Unit := .propCreate 1 .event ⟨0, 0⟩ (exProp exPA .event .string false) (.ok ())
def exP2 : Req Unit := .propCreate 1 .event ⟨0, 0⟩ (exProp exPB .event .int64 false) (.ok ())
def exP3 : Req Unit := .propGetOrCreate 1 (.group 0) ⟨0, 0⟩ (exProp exPA (.group 0) .string false) (.ok ())
def exP4 : Req Unit := .propUpdate 1 .event 2 ⟨1, 0⟩ { updatedBy := 1, dataType := some .string }
def exColumns : List (Req Unit) := [exP1, exP2, exP3]
def exRetyped : List (Req Unit) := [exP1, exP2, exP4]

/-- A history with three properties: their columns. -/
example : CHist exEnv 3 (runReqs exEnv exColumns []) ∧
    ((propsC 1 .event).getById 1 (runReqs exEnv exColumns [])).toOption.map (·.columnName exEnv.sys) = some "e_str_0".toList ∧
    ((propsC 1 .event).getById 2 (runReqs exEnv exColumns [])).toOption.map (·.columnName exEnv.sys) = some "e_i64_0".toList ∧
    ((propsC 1 (.group 0)).getById 1 (runReqs exEnv exColumns [])).toOption.map (·.columnName exEnv.sys) = some "g_0_str_1".toList := by
  refine ⟨CHist.of_run exEnv exColumns ?_, by decide +kernel, by decide +kernel, by decide +kernel⟩
  intro r hr
  simp only [exColumns, List.mem_cons, List.not_mem_nil, or_false] at hr
  rcases hr with rfl | rfl | rfl
  · exact ⟨⟨by decide, by decide, by intro g e; cases e⟩, trivial⟩
  · exact ⟨⟨by decide, by decide, by intro g e; cases e⟩, trivial⟩
  · exact ⟨⟨by decide, by decide, by intro g e; cases e; decide⟩, trivial⟩

/-- C40 does not hold when the data type of a property is updated: its column changes to one that is taken. -/
theorem C40_violated : ∃ kv, Hist exEnv 3 kv ∧ ∃ r r', (propsC 1 .event).getById 1 kv = .ok r ∧ (propsC 1 .event).getById 2 kv = .ok r' ∧
    r.isSystem = false ∧ r'.isSystem = false ∧ r.columnName exEnv.sys = r'.columnName exEnv.sys := by
  refine ⟨runReqs exEnv exRetyped [], Hist.of_run exEnv exRetyped ?_, ?_⟩
  · intro r hr
    simp only [exRetyped, List.mem_cons, List.not_mem_nil, or_false] at hr
    rcases hr with rfl | rfl | rfl
    · exact ⟨by decide, by decide, by intro g e; cases e⟩
    · exact ⟨by decide, by decide, by intro g e; cases e⟩
    · exact ⟨by decide, (by intro g e; cases e), (by intro t e; cases e; rfl)⟩
  · have e1 : ((propsC 1 .event).getById 1 (runReqs exEnv exRetyped [])).toOption.map (fun r => (r.isSystem, r.columnName exEnv.sys)) = some (false, "e_str_0".toList) := by decide +kernel
    have e2 : ((propsC 1 .event).getById 2 (runReqs exEnv exRetyped [])).toOption.map (fun r => (r.isSystem, r.columnName exEnv.sys)) = some (false, "e_str_0".toList) := by decide +kernel
    cases g1 : (propsC 1 .event).getById 1 (runReqs exEnv exRetyped []) with
    | error x => rw [g1] at e1; cases e1
    | ok r1 => cases g2 : (propsC 1 .event).getById 2 (runReqs exEnv exRetyped []) with
      | error x => rw [g2] at e2; cases e2
      | ok r2 =>
        rw [g1] at e1; rw [g2] at e2
        simp only [Except.toOption, Option.map_some, Option.some.injEq, Prod.mk.injEq] at e1 e2
        exact ⟨r1, r2, rfl, rfl, e1.1, e2.1, by rw [e1.2, e2.2]⟩

def exSys : List (Req Unit) :=
  [.propCreate 1 .event ⟨0, 0⟩ (exProp exPA .event .string true) (.ok ()), .propCreate 1 (.group 0) ⟨0, 0⟩ (exProp exPA (.group 0) .string true) (.ok ())]

/-- Nor for system properties: one of the events and one of a group, with the same name, share the column,
whatever the snake-case conversion. -/
theorem C40_system_violated : ∃ kv, CHist exEnv 2 kv ∧ ∃ r r', (propsC 1 .event).getById 1 kv = .ok r ∧
    (propsC 1 (.group 0)).getById 1 kv = .ok r' ∧ ∀ sys, r.columnName sys = r'.columnName sys := by
  refine ⟨runReqs exEnv exSys [], CHist.of_run exEnv exSys ?_, ?_⟩
  · intro r hr
    simp only [exSys, List.mem_cons, List.not_mem_nil, or_false] at hr
    rcases hr with rfl | rfl
    · exact ⟨⟨by decide, by decide, by intro g e; cases e⟩, trivial⟩
    · exact ⟨⟨by decide, by decide, by intro g e; cases e; decide⟩, trivial⟩
  · have e1 : ((propsC 1 .event).getById 1 (runReqs exEnv exSys [])).toOption.map (fun r => (r.isSystem, r.name)) = some (true, exPA) := by decide +kernel
    have e2 : ((propsC 1 (.group 0)).getById 1 (runReqs exEnv exSys [])).toOption.map (fun r => (r.isSystem, r.name)) = some (true, exPA) := by decide +kernel
    cases g1 : (propsC 1 .event).getById 1 (runReqs exEnv exSys []) with
    | error x => rw [g1] at e1; cases e1
    | ok r1 => cases g2 : (propsC 1 (.group 0)).getById 1 (runReqs exEnv exSys []) with
      | error x => rw [g2] at e2; cases e2
      | ok r2 =>
        rw [g1] at e1; rw [g2] at e2
        simp only [Except.toOption, Option.map_some, Option.some.injEq, Prod.mk.injEq] at e1 e2
        refine ⟨r1, r2, rfl, rfl, fun sys => ?_⟩
        unfold Property.columnName
        rw [if_pos e1.1, if_pos e2.1, e1.2, e2.2]

end OptiPrism.Meta
