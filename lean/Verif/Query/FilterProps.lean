import Verif.Query.Filter
import Verif.Query.TimeProps
import Verif.Ingest.ValueProps

/-!
# C49, C50, C80, C81: filters mean what they say
-/

namespace OptiPrism.Query
open OptiPrism.Meta (Str PropOp EventRef)
open OptiPrism.Ingest (dictCell decodeCell cellKey dictRoom)

/-! ### helpers -/

theorem triOr_true {a b : Tri} : triOr a b = some true ↔ a = some true ∨ b = some true := by
  rcases a with _ | _ | _ <;> rcases b with _ | _ | _ <;> simp [triOr]

theorem triAnd_true {a b : Tri} : triAnd a b = some true ↔ a = some true ∧ b = some true := by
  rcases a with _ | _ | _ <;> rcases b with _ | _ | _ <;> simp [triAnd]

theorem foldl_or (S : Sem) (row : QRow) (es : List Expr) (e : Expr) :
    Selects S row (es.foldl .or e) ↔ Selects S row e ∨ ∃ x ∈ es, Selects S row x := by
  induction es generalizing e with
  | nil => simp
  | cons a es ih =>
    rw [List.foldl_cons, ih]
    simp only [Selects, eval, triOr_true, List.mem_cons, exists_eq_or_imp, or_assoc]

theorem foldl_and (S : Sem) (row : QRow) (es : List Expr) (e : Expr) :
    Selects S row (es.foldl .and e) ↔ Selects S row e ∧ ∀ x ∈ es, Selects S row x := by
  induction es generalizing e with
  | nil => simp
  | cons a es ih =>
    rw [List.foldl_cons, ih]
    simp only [Selects, eval, triAnd_true, List.mem_cons, forall_eq_or_imp, and_assoc]

theorem multiOr_selects {S : Sem} {row : QRow} {es : List Expr} {e : Expr} (h : multiOr es = .ok e) :
    Selects S row e ↔ ∃ x ∈ es, Selects S row x := by
  match es, h with
  | [a], h => cases h; simp
  | a :: b :: rest, h =>
    cases h
    rw [foldl_or]
    simp only [Selects, eval, triOr_true, List.mem_cons, exists_eq_or_imp, or_assoc]

theorem multiAnd_selects {S : Sem} {row : QRow} {es : List Expr} {e : Expr} (h : multiAnd es = .ok e) :
    Selects S row e ↔ ∀ x ∈ es, Selects S row x := by
  match es, h with
  | [a], h => cases h; simp
  | a :: b :: rest, h =>
    cases h
    rw [foldl_and]
    simp only [Selects, eval, triAnd_true, List.mem_cons, forall_eq_or_imp, and_assoc]

/-- What the code does with every operation taking values: some value must satisfy it. -/
theorem named_selects {S : Sem} {row : QRow} {col : Str} {o : Op} {vs : List (Option Cell)} {e : Expr}
    (h : (match some vs with
      | none => .error .plan
      | some [v] => .ok (.bin o col v)
      | some vs => multiOr (vs.map (.bin o col)) : Except QErr Expr) = .ok e) :
    Selects S row e ↔ ∃ a, row col = some a ∧ ∃ b, some b ∈ vs ∧ S.apply o a b = true := by
  have one : ∀ v, Selects S row (.bin o col v) ↔ ∃ a, row col = some a ∧ ∃ b, v = some b ∧ S.apply o a b = true := by
    intro v
    simp only [Selects, eval]
    cases row col <;> cases v <;> simp
  have many : Selects S row e ↔ ∃ v ∈ vs, Selects S row (.bin o col v) := by
    match vs, h with
    | [], h => cases h
    | [v], h => cases h; simp
    | a :: b :: rest, h =>
      rw [multiOr_selects h]
      constructor
      · rintro ⟨x, hx, hs⟩
        obtain ⟨v, hv, rfl⟩ := List.mem_map.1 hx
        exact ⟨v, hv, hs⟩
      · rintro ⟨v, hv, hs⟩
        exact ⟨_, List.mem_map.2 ⟨v, hv, rfl⟩, hs⟩
  rw [many]
  constructor
  · rintro ⟨v, hv, hs⟩
    obtain ⟨a, h1, b, rfl, h2⟩ := (one v).1 hs
    exact ⟨a, h1, b, hv, h2⟩
  · rintro ⟨a, h1, b, hb, h2⟩
    exact ⟨_, hb, (one _).2 ⟨a, h1, b, rfl, h2⟩⟩

/-! ### C49 -/

/-- The full statement: 'equals' selects the rows whose value is listed, 'not equals' the rows with a
value which is not listed. -/
def C49_full : Prop :=
  ∀ (S : Sem) (row : QRow) (col : Str) (vs : List (Option Cell)),
    (∀ e, namedPropertyExpression col .eq (some vs) = .ok e →
      (Selects S row e ↔ ∃ a, row col = some a ∧ some a ∈ vs)) ∧
    (∀ e, namedPropertyExpression col .neq (some vs) = .ok e →
      (Selects S row e ↔ ∃ a, row col = some a ∧ some a ∉ vs))

/-- **C49 (part).** 'equals' is right for every list. 'not equals' is right when the list has only one
value (possibly repeated). An empty list panics, any other list is accepted. Missing: 'not equals' with
two different values, where the claim is false. -/
theorem C49_partial (S : Sem) (row : QRow) (col : Str) (vs : List (Option Cell)) :
    ((∃ e, namedPropertyExpression col .eq (some vs) = .ok e) ↔ vs ≠ []) ∧
    (∀ e, namedPropertyExpression col .eq (some vs) = .ok e →
      (Selects S row e ↔ ∃ a, row col = some a ∧ some a ∈ vs)) ∧
    (∀ b e, (∀ v ∈ vs, v = some b) → namedPropertyExpression col .neq (some vs) = .ok e →
      (Selects S row e ↔ ∃ a, row col = some a ∧ some a ∉ vs)) := by
  refine ⟨?_, ?_, ?_⟩
  · match vs with
    | [] => simp [namedPropertyExpression, multiOr]
    | [v] => simp [namedPropertyExpression]
    | a :: b :: rest => simp [namedPropertyExpression, multiOr]
  · intro e h
    rw [named_selects (o := .eq) h]
    constructor
    · rintro ⟨a, h1, b, hb, h2⟩
      simp only [Sem.apply, beq_iff_eq] at h2
      exact ⟨a, h1, h2 ▸ hb⟩
    · rintro ⟨a, h1, h2⟩
      exact ⟨a, h1, a, h2, by simp [Sem.apply]⟩
  · intro b e hall h
    rw [named_selects (o := .neq) h]
    constructor
    · rintro ⟨a, h1, b', hb, h2⟩
      simp only [Sem.apply, bne_iff_ne, ne_eq] at h2
      refine ⟨a, h1, fun h3 => h2 ?_⟩
      have e1 := hall _ hb
      have e2 := hall _ h3
      exact Option.some.inj (e2.trans e1.symm)
    · rintro ⟨a, h1, h2⟩
      match vs, h, hall with
      | [], h, _ => cases h
      | v :: rest, h, hall =>
        have := hall v (by simp)
        subst this
        refine ⟨a, h1, b, by simp, ?_⟩
        simp only [Sem.apply, bne_iff_ne, ne_eq]
        rintro rfl
        simp at h2

/-- **What 'not equals' does.** With two different values in the list the filter selects every row with a
value, the listed ones included. -/
theorem C49_neq_all (S : Sem) (row : QRow) (col : Str) (vs : List (Option Cell)) (b b' : Cell) (hne : b ≠ b')
    (hb : some b ∈ vs) (hb' : some b' ∈ vs) (e : Expr)
    (h : namedPropertyExpression col .neq (some vs) = .ok e) :
    Selects S row e ↔ row col ≠ none := by
  rw [named_selects (o := .neq) h]
  constructor
  · rintro ⟨a, h1, _⟩; simp [h1]
  · intro h1
    cases ha : row col with
    | none => exact absurd ha h1
    | some a =>
      refine ⟨a, rfl, ?_⟩
      rcases Decidable.em (a = b) with e | e
      · exact ⟨b', hb', by simp only [Sem.apply, bne_iff_ne, ne_eq]; exact fun h => hne (e ▸ h)⟩
      · exact ⟨b, hb, by simp only [Sem.apply, bne_iff_ne, ne_eq]; exact e⟩

/-- What a condition on a property says of the property's value: with a list of values, that the value is there and stands in the
relation to one of the values of the list. -/
def Says (S : Sem) (v : Option Cell) (vs : List (Option Cell)) : PropOp → Prop
  | .eq => ∃ a b, v = some a ∧ some b ∈ vs ∧ a = b
  | .neq => ∃ a b, v = some a ∧ some b ∈ vs ∧ a ≠ b
  | .gt => ∃ a b, v = some a ∧ some b ∈ vs ∧ S.lt b a = true
  | .gte => ∃ a b, v = some a ∧ some b ∈ vs ∧ (S.lt b a = true ∨ a = b)
  | .lt => ∃ a b, v = some a ∧ some b ∈ vs ∧ S.lt a b = true
  | .lte => ∃ a b, v = some a ∧ some b ∈ vs ∧ (S.lt a b = true ∨ a = b)
  | .like => ∃ a b, v = some a ∧ some b ∈ vs ∧ S.like a b = true
  | .notLike => ∃ a b, v = some a ∧ some b ∈ vs ∧ S.like a b = false
  | .regex => ∃ a b, v = some a ∧ some b ∈ vs ∧ S.regex a b = true
  | .notRegex => ∃ a b, v = some a ∧ some b ∈ vs ∧ S.regex a b = false
  | .true => v = some (.bool true)
  | .false => v = some (.bool false)
  | .empty => v = none
  | .exists => ∃ a, v = some a

/-- **C49, all operators.** Whatever the operator, an accepted condition selects the rows of which it says the truth. -/
theorem C49_operators (S : Sem) (row : QRow) (col : Str) (op : PropOp) (vs : List (Option Cell)) (e : Expr)
    (h : namedPropertyExpression col op (some vs) = .ok e) : Selects S row e ↔ Says S (row col) vs op := by
  have flat : ∀ (o : Op) (R : Cell → Cell → Prop), (∀ a b, S.apply o a b = true ↔ R a b) →
      ((∃ a, row col = some a ∧ ∃ b, some b ∈ vs ∧ S.apply o a b = true) ↔ ∃ a b, row col = some a ∧ some b ∈ vs ∧ R a b) := by
    intro o R hR
    constructor
    · rintro ⟨a, h1, b, h2, h3⟩; exact ⟨a, b, h1, h2, (hR a b).1 h3⟩
    · rintro ⟨a, b, h1, h2, h3⟩; exact ⟨a, h1, b, h2, (hR a b).2 h3⟩
  cases op
  case eq => rw [named_selects (o := .eq) h]; exact flat .eq _ (by simp [Sem.apply])
  case neq => rw [named_selects (o := .neq) h]; exact flat .neq _ (by simp [Sem.apply])
  case gt => rw [named_selects (o := .gt) h]; exact flat .gt _ (by simp [Sem.apply])
  case gte => rw [named_selects (o := .gte) h]; exact flat .gte _ (by simp [Sem.apply])
  case lt => rw [named_selects (o := .lt) h]; exact flat .lt _ (by simp [Sem.apply])
  case lte => rw [named_selects (o := .lte) h]; exact flat .lte _ (by simp [Sem.apply])
  case like => rw [named_selects (o := .like) h]; exact flat .like _ (by simp [Sem.apply])
  case notLike => rw [named_selects (o := .notLike) h]; exact flat .notLike _ (by simp [Sem.apply])
  case regex => rw [named_selects (o := .regex) h]; exact flat .regex _ (by simp [Sem.apply])
  case notRegex => rw [named_selects (o := .notRegex) h]; exact flat .notRegex _ (by simp [Sem.apply])
  case «true» => cases h; simp [Selects, eval, Says]
  case «false» => cases h; simp [Selects, eval, Says]
  case empty => cases h; simp [Selects, eval, Says]
  case «exists» => cases h; simp [Selects, eval, Says, Option.isSome_iff_exists]

/-- A comparison to have witnesses with. -/
def exSem : Sem where
  lt := fun a b => match a, b with
    | .int a, .int b => decide (a < b)
    | .ts a, .ts b => decide (a < b)
    | _, _ => false
  like := fun _ _ => false
  regex := fun _ _ => false

/-- **C49 is violated**: `country != 'DE', 'FR'` selects a row with the country 'DE'. -/
theorem C49_violated : ¬ C49_full := by
  intro h
  have := (h exSem (fun _ => some (.int 1)) [] [some (.int 1), some (.int 2)]).2 _ rfl
  have h1 : Selects exSem (fun _ => some (.int 1)) (.or (.bin .neq [] (some (.int 1))) (.bin .neq [] (some (.int 2)))) := by
    unfold Selects; decide
  obtain ⟨a, h2, h3⟩ := this.1 h1
  cases h2
  simp at h3

example : ∃ e, namedPropertyExpression [] .eq (some [some (.int 1), none, some (.int 2)]) = .ok e ∧
    Selects exSem (fun _ => some (.int 2)) e ∧ ¬ Selects exSem (fun _ => some (.int 3)) e ∧ ¬ Selects exSem (fun _ => none) e :=
  ⟨_, rfl, by unfold Selects; decide, by unfold Selects; decide, by unfold Selects; decide⟩

/-- **C49 (several filters).** The filters of an event are a conjunction. -/
theorem C49_filters {F : Type} (md : Md F) (S : Sem) (row : QRow) (fs : List F) (e : Expr)
    (h : eventFiltersExpression md fs = .ok e) :
    Selects S row e ↔ ∀ f ∈ fs, ∃ x, md.filter f = .ok x ∧ Selects S row x := by
  unfold eventFiltersExpression at h
  cases hc : collect md.filter fs with
  | error x => rw [hc] at h; cases h
  | ok es =>
    rw [hc] at h
    rw [multiAnd_selects h]
    clear h
    induction fs generalizing es with
    | nil => cases hc; simp
    | cons f fs ih =>
      unfold collect at hc
      cases hf : md.filter f with
      | error x => rw [hf] at hc; cases hc
      | ok b =>
        rw [hf] at hc
        dsimp only at hc
        cases hr : collect md.filter fs with
        | error x => rw [hr] at hc; cases hc
        | ok bs =>
          rw [hr] at hc
          cases hc
          have := ih bs hr
          simp only [List.mem_cons, forall_eq_or_imp]
          rw [this, hf]
          simp

/-! ### C50 -/

/-- The moment `f` lies `n` calendar months before `t`: same time of day, the month `n` months earlier, and
the same day of the month or the last one of the month if it is shorter. -/
def MonthsBefore (n t f : Int) : Prop :=
  f % nsDay = t % nsDay ∧
  12 * yearOf (dayAt f) + (monthOf (dayAt f) : Int) = 12 * yearOf (dayAt t) + (monthOf (dayAt t) : Int) - n ∧
  dayOf (dayAt f) = min (dayOf (dayAt t)) (monthLen (yearOf (dayAt f)) (monthOf (dayAt f)))

/-- What a time specification denotes at a current time. -/
def Denotes : QueryTime → Int → Int → Int → Prop
  | .between a b, _, f, t => f = a ∧ t = b
  | .from_ a, cur, f, t => f = a ∧ t = cur
  | .last n .hour, cur, f, t => f = cur - n * nsHour ∧ t = cur
  | .last n .day, cur, f, t => f = cur - n * nsDay ∧ t = cur
  | .last n .week, cur, f, t => f = cur - n * (7 * nsDay) ∧ t = cur
  | .last n .month, cur, f, t => MonthsBefore n cur f ∧ t = cur
  | .last n .year, cur, f, t => MonthsBefore (12 * n) cur f ∧ t = cur

/-- The full statement. -/
def C50_full : Prop :=
  ∀ (S : Sem), (∀ a b, S.lt (.ts a) (.ts b) = decide (a < b)) →
    ∀ (u : TsUnit) (q : QueryTime) (cur : Int) (col : Str) (e : Expr), timeExpression col u q cur = .ok e →
      ∃ f t, Denotes q cur f t ∧
        ∀ (row : QRow) (v : Int), row col = some (.ts v) → (Selects S row e ↔ f ≤ v * u.len ∧ v * u.len ≤ t)

theorem time_selects {S : Sem} (hS : ∀ a b, S.lt (.ts a) (.ts b) = decide (a < b)) {row : QRow} {col : Str} {v f t : Int}
    (h : row col = some (.ts v)) :
    Selects S row (.and (.bin .gte col (some (.ts f))) (.bin .lte col (some (.ts t)))) ↔ f ≤ v ∧ v ≤ t := by
  simp only [Selects, eval, h, triAnd_true, Option.some.injEq, Sem.apply, hS, Bool.or_eq_true, decide_eq_true_eq, beq_iff_eq,
    Cell.ts.injEq]
  omega

theorem shift_months_before (t j : Int) : MonthsBefore (-j) t (shiftMonths t j) := by
  rw [shiftMonths_eq]
  dsimp only
  obtain ⟨a, b, c, d, e⟩ := civil_spec (dayAt t)
  have hl := monthLen_pos ((monthIdx (dayAt t) + j) / 12) (((monthIdx (dayAt t) + j) % 12).toNat + 1)
  obtain ⟨h1, h2, h3⟩ := dayNum_civil (y := (monthIdx (dayAt t) + j) / 12) (m := ((monthIdx (dayAt t) + j) % 12).toNat + 1)
    (d := min (dayOf (dayAt t)) (monthLen ((monthIdx (dayAt t) + j) / 12) (((monthIdx (dayAt t) + j) % 12).toNat + 1)))
    (by omega) (by omega) (by omega) (by omega)
  generalize dayNum ((monthIdx (dayAt t) + j) / 12) (((monthIdx (dayAt t) + j) % 12).toNat + 1) _ = n at *
  have hday : dayAt (midnight n + t % nsDay) = n := by unfold dayAt midnight nsDay; omega
  have hmod : (midnight n + t % nsDay) % nsDay = t % nsDay := by unfold midnight nsDay; omega
  refine ⟨hmod, ?_, ?_⟩
  · rw [hday, h1, h2]
    unfold monthIdx; omega
  · rw [hday, h1, h2, h3]

/-- **C50 (part).** The range is the one the specification denotes, unless a number of months or years
exceeds 32 bits; the filter keeps exactly the rows from the start, rounded down to the unit of the
column, to the end inclusively. It is exact when the start is a whole number of units. Missing: starts
between two units of the column, numbers of months from 2^31 (178956970 years). -/
theorem C50_partial (S : Sem) (hS : ∀ a b, S.lt (.ts a) (.ts b) = decide (a < b)) (u : TsUnit) (q : QueryTime) (cur : Int)
    (col : Str) (hq : ∀ n, (q = .last n .month → -2147483648 ≤ n ∧ n < 2147483648) ∧
      (q = .last n .year → -178956970 ≤ n ∧ n ≤ 178956970)) :
    ∃ e f t, timeExpression col u q cur = .ok e ∧ Denotes q cur f t ∧
      ∀ (row : QRow), (∀ v, row col = some (.ts v) →
        (Selects S row e ↔ f / u.len * u.len ≤ v * u.len ∧ v * u.len ≤ t) ∧
        (f % u.len = 0 → (Selects S row e ↔ f ≤ v * u.len ∧ v * u.len ≤ t))) ∧
        (row col = none → ¬ Selects S row e) := by
  have key : ∃ f t, q.range cur = some (f, t) ∧ Denotes q cur f t := by
    cases q with
    | between a b => exact ⟨a, b, rfl, rfl, rfl⟩
    | from_ a => exact ⟨a, cur, rfl, rfl, rfl⟩
    | last n un =>
      cases un with
      | hour => exact ⟨_, _, rfl, by unfold subRel addRel; dsimp only; rw [Int.neg_zero, shift_zero_trunc]; omega, rfl⟩
      | day => exact ⟨_, _, rfl, by unfold subRel addRel; dsimp only; rw [Int.neg_zero, shift_zero_trunc]; omega, rfl⟩
      | week => exact ⟨_, _, rfl, by unfold subRel addRel; dsimp only; rw [Int.neg_zero, shift_zero_trunc]; omega, rfl⟩
      | month =>
        obtain ⟨h1, h2⟩ := (hq n).1 rfl
        have ea : asI32 n = n := by unfold asI32; omega
        refine ⟨_, _, rfl, ?_, rfl⟩
        unfold subRel addRel
        dsimp only
        rw [ea]
        have := shift_months_before cur (-n)
        rw [show - -n = n by omega] at this
        rw [show shiftMonths cur (-n) + -0 = shiftMonths cur (-n) by omega]
        exact this
      | year =>
        obtain ⟨h1, h2⟩ := (hq n).2 rfl
        have ea : asI32 n = n := by unfold asI32; omega
        refine ⟨shiftMonths cur (-(12 * n)), cur, ?_, ?_, rfl⟩
        · unfold QueryTime.range relativeDuration
          dsimp only
          rw [ea, if_pos (by omega)]
          simp only [Option.map, subRel, addRel]
          rw [show n * 12 = 12 * n by omega]
          simp
        · have := shift_months_before cur (-(12 * n))
          rw [show - -(12 * n) = 12 * n by omega] at this
          exact this
  obtain ⟨f, t, hr, hd⟩ := key
  refine ⟨_, f, t, by unfold timeExpression; rw [hr], hd, fun row => ⟨fun v hv => ?_, fun hn hs => ?_⟩⟩
  · have hsel := time_selects hS (f := f / u.len) (t := t / u.len) hv
    unfold litTimestamp
    rw [hsel]
    cases u <;> simp only [TsUnit.len] <;> constructor <;> omega
  · simp [Selects, eval, hn, triAnd] at hs

/-- The hypotheses hold for "the last month" at 2024-03-31T12:00: it starts on 2024-02-29T12:00. -/
example : (QueryTime.last 1 .month).range (midnight (dayNum 2024 3 31) + 12 * nsHour) =
    some (midnight (dayNum 2024 2 29) + 12 * nsHour, midnight (dayNum 2024 3 31) + 12 * nsHour) := by decide +kernel

/-- **C50 is violated**: at half a millisecond past the hour, "the last hour" includes an event half a
millisecond older than that. -/
theorem C50_violated : ¬ C50_full := by
  intro h
  obtain ⟨f, t, hd, hs⟩ := h exSem (fun _ _ => rfl) .ms (.last 1 .hour) (5 * nsHour + 500000) [] _ rfl
  obtain ⟨rfl, rfl⟩ := hd
  have := hs (fun _ => some (.ts (4 * 3600000))) _ rfl
  have h1 : Selects exSem (fun _ => some (.ts (4 * 3600000)))
      (.and (.bin .gte [] (litTimestamp .ms (subRel (5 * nsHour + 500000) ⟨0, 1 * nsHour⟩)))
        (.bin .lte [] (litTimestamp .ms (5 * nsHour + 500000)))) := by
    unfold Selects; decide +kernel
  have h2 := (this.1 h1).1
  revert h2
  decide

/-- ... and 2^32 months are none. -/
theorem C50_months_violated : (QueryTime.last 4294967296 .month).range 0 = some (0, 0) := by decide +kernel

/-! ### C80 -/

/-- Which rows a reference to an event means: by name or by number the rows of that event; a custom event
the rows of one of its events which satisfy the filters given with it. -/
inductive Matches {F : Type} (md : Md F) (S : Sem) (row : QRow) : EventRef → Prop
  | name {n : Str} {id : Nat} (h : md.event n = .ok id) (hr : row kEventCol = some (.int (id : Int))) :
      Matches md S row (.regularName n)
  | regular {id : Nat} (hr : row kEventCol = some (.int (id : Int))) : Matches md S row (.regular id)
  | custom {c : Nat} {evs : List (EventRef × Option (List F))} {ev : EventRef} {fs : Option (List F)}
      (h : md.custom c = .ok evs) (hm : (ev, fs) ∈ evs) (he : Matches md S row ev)
      (hf : ∀ l, fs = some l → ∀ f ∈ l, ∃ x, md.filter f = .ok x ∧ Selects S row x) :
      Matches md S row (.custom c)

/-- The numbers occurring fit the code: names denote identifiers below 2^63, direct references are below
2^16. -/
structure Narrow {F : Type} (md : Md F) (r : EventRef) : Prop where
  names : ∀ n id, md.event n = .ok id → id < 2 ^ 63
  direct : ∀ id, r = .regular id → id < 65536
  inner : ∀ c evs id fs, md.custom c = .ok evs → (EventRef.regular id, fs) ∈ evs → id < 65536

theorem collect_mem {α β : Type} {f : α → Except QErr β} {l : List α} {bs : List β} (h : collect f l = .ok bs) (P : β → Prop) :
    (∃ b ∈ bs, P b) ↔ ∃ a ∈ l, ∃ b, f a = .ok b ∧ P b := by
  induction l generalizing bs with
  | nil => cases h; simp
  | cons a l ih =>
    unfold collect at h
    cases hf : f a with
    | error x => rw [hf] at h; cases h
    | ok b =>
      rw [hf] at h
      dsimp only at h
      cases hr : collect f l with
      | error x => rw [hr] at h; cases h
      | ok bs' =>
        rw [hr] at h
        cases h
        simp only [List.mem_cons, exists_eq_or_imp, ih hr, hf, Except.ok.injEq, exists_eq_left']

theorem bin_eq_selects {S : Sem} {row : QRow} {c : Str} {v : Cell} : Selects S row (.bin .eq c (some v)) ↔ row c = some v := by
  simp only [Selects, eval]
  cases row c <;> simp [Sem.apply]

/-- **C80 (part).** An event filter the code builds selects exactly the rows the reference means, for
names, direct references and custom events nested to any depth, with their filters. Missing: direct
references to identifiers from 65536. -/
theorem C80_partial {F : Type} (md : Md F) (S : Sem) (row : QRow) (fuel : Nat) (r : EventRef) (hn : Narrow md r) (e : Expr)
    (h : eventExpression md fuel r = .ok e) : Selects S row e ↔ Matches md S row r := by
  induction fuel generalizing r e with
  | zero => cases h
  | succ fuel ih =>
    cases r with
    | regularName n =>
      unfold eventExpression at h
      dsimp only at h
      cases he : md.event n with
      | error x => rw [he] at h; cases h
      | ok id =>
        rw [he] at h
        cases h
        have hid := hn.names n id he
        have ec : (BitVec.ofNat 64 id).toInt = (id : Int) := by
          rw [BitVec.toInt_eq_toNat_of_lt] <;> rw [BitVec.toNat_ofNat] <;> omega
        rw [bin_eq_selects, ec]
        constructor
        · intro hr; exact .name he hr
        · rintro ⟨h1, h2⟩
          rw [he] at h1; cases h1; assumption
    | regular id =>
      unfold eventExpression at h
      cases h
      have := hn.direct id rfl
      rw [bin_eq_selects, show ((id % 65536 : Nat) : Int) = (id : Int) by omega]
      constructor
      · intro hr; exact .regular hr
      · rintro ⟨h1⟩; assumption
    | custom c =>
      unfold eventExpression at h
      dsimp only at h
      cases he : md.custom c with
      | error x => rw [he] at h; cases h
      | ok evs =>
        rw [he] at h
        dsimp only at h
        cases hc : collect (fun ev => withFilters md (eventExpression md fuel ev.1) ev.2) evs with
        | error x => rw [hc] at h; cases h
        | ok es =>
          rw [hc] at h
          have hor : Selects S row e ↔ ∃ x ∈ es, Selects S row x := by
            match es, h with
            | [], h => cases h
            | a :: es, h =>
              cases h
              rw [foldl_or]; simp
          rw [hor, collect_mem hc]
          have hall : ∀ ev fs, (ev, fs) ∈ evs → ∀ x, withFilters md (eventExpression md fuel ev) fs = .ok x →
              (Selects S row x ↔ Matches md S row ev ∧
                ∀ l, fs = some l → ∀ f ∈ l, ∃ x, md.filter f = .ok x ∧ Selects S row x) := by
            intro ev fs hmem x hx
            have hn' : Narrow md ev := ⟨hn.names, fun id hid => hn.inner c evs id fs he (hid ▸ hmem), hn.inner⟩
            unfold withFilters at hx
            cases h1 : eventExpression md fuel ev with
            | error x => rw [h1] at hx; cases hx
            | ok y =>
              rw [h1] at hx
              dsimp only at hx
              cases fs with
              | none => cases hx; rw [ih ev hn' _ h1]; simp
              | some l =>
                dsimp only at hx
                cases h2 : eventFiltersExpression md l with
                | error x => rw [h2] at hx; cases hx
                | ok z =>
                  rw [h2] at hx
                  cases hx
                  simp only [Selects, eval, triAnd_true]
                  rw [show (eval S row y = some true) = Selects S row y from rfl, ih ev hn' _ h1,
                    show (eval S row z = some true) = Selects S row z from rfl, C49_filters md S row l z h2]
                  simp [Selects]
          constructor
          · rintro ⟨⟨ev, fs⟩, hmem, x, hx, hs⟩
            obtain ⟨h1, h2⟩ := (hall ev fs hmem x hx).1 hs
            exact .custom he hmem h1 h2
          · rintro ⟨⟩
            rename_i evs' ev fs hm h2 h3 h1
            rw [he] at h1
            cases h1
            have : ∃ x, withFilters md (eventExpression md fuel ev) fs = .ok x := by
              have hcol : ∀ {l : List (EventRef × Option (List F))} {bs},
                  collect (fun ev => withFilters md (eventExpression md fuel ev.1) ev.2) l = .ok bs → (ev, fs) ∈ l →
                  ∃ x, withFilters md (eventExpression md fuel ev) fs = .ok x := by
                intro l
                induction l with
                | nil => intro bs _ hm; cases hm
                | cons a l ihl =>
                  intro bs hb hm
                  unfold collect at hb
                  cases hf : withFilters md (eventExpression md fuel a.1) a.2 with
                  | error x => rw [hf] at hb; cases hb
                  | ok b =>
                    rw [hf] at hb
                    dsimp only at hb
                    cases hr : collect (fun ev => withFilters md (eventExpression md fuel ev.1) ev.2) l with
                    | error x => rw [hr] at hb; cases hb
                    | ok bs' =>
                      rcases List.mem_cons.1 hm with hm | hm
                      · subst hm; exact ⟨b, hf⟩
                      · exact ihl hr hm
              exact hcol hc hm
            obtain ⟨x, hx⟩ := this
            exact ⟨(ev, fs), hm, x, hx, (hall ev fs hm x hx).2 ⟨h2, h3⟩⟩

/-- A store with a custom event of a custom event, the inner one with a filter. -/
def exMd : Md Expr where
  event := fun n => if n = kEventCol then .ok 7 else .error .notFound
  custom := fun c => match c with
    | 1 => .ok [(.regular 3, none), (.custom 2, none)]
    | 2 => .ok [(.regularName kEventCol, some [.isNotNull []])]
    | _ => .error .notFound
  filter := .ok

theorem exMd_narrow (c : Nat) : Narrow exMd (.custom c) := by
  refine ⟨?_, (by intro id h; cases h), ?_⟩
  · intro n id h
    simp only [exMd] at h
    split at h <;> cases h
    omega
  · intro c evs id fs h hm
    simp only [exMd] at h
    split at h <;> cases h
    · simp at hm; omega
    · simp at hm

example : ∃ e, eventExpression exMd 3 (.custom 1) = .ok e ∧
    Selects exSem (fun _ => some (.int 7)) e ∧ ¬ Selects exSem (fun _ => some (.int 8)) e := by
  have h : (eventExpression exMd 3 (.custom 1)).toOption.isSome = true := by decide +kernel
  cases he : eventExpression exMd 3 (.custom 1) with
  | error x => rw [he] at h; cases h
  | ok e =>
    refine ⟨e, rfl, ?_, ?_⟩
    · rw [C80_partial exMd exSem _ 3 _ (exMd_narrow 1) e he]
      refine .custom (ev := .custom 2) (fs := none) rfl (by simp) ?_ (by intro l h; cases h)
      refine .custom (ev := .regularName kEventCol) (fs := some [.isNotNull []]) rfl (by simp) (.name (id := 7) (by simp [exMd]) rfl) ?_
      intro l h f hf
      cases h
      simp at hf
      subst hf
      exact ⟨_, rfl, by unfold Selects; decide⟩
    · rw [C80_partial exMd exSem _ 3 _ (exMd_narrow 1) e he]
      intro hm
      cases hm with
      | custom h hm he hf =>
        cases h
        simp only [List.mem_cons, Prod.mk.injEq, List.not_mem_nil, or_false] at hm
        rcases hm with ⟨rfl, rfl⟩ | ⟨rfl, rfl⟩
        · cases he with | regular hr => cases hr
        · cases he with
          | custom h hm he hf =>
            cases h
            simp only [List.mem_cons, Prod.mk.injEq, List.not_mem_nil, or_false] at hm
            obtain ⟨rfl, rfl⟩ := hm
            cases he with
            | name h hr =>
              simp [exMd] at h
              subst h
              cases hr

/-- **C80 is violated** for a direct reference to the event 65537: the filter selects the rows of event 1 and
none of its own. -/
theorem C80_violated {F : Type} (md : Md F) (S : Sem) : ∃ e, eventExpression md 1 (.regular 65537) = .ok e ∧
    Selects S (fun _ => some (.int 1)) e ∧ ¬ Selects S (fun _ => some (.int 65537)) e :=
  ⟨_, rfl, by rw [bin_eq_selects]; rfl, by rw [bin_eq_selects]; decide⟩

/-! ### C81 -/

theorem ofG_dictCell (dt : Meta.DictType) (k : Nat) (h : k < dictRoom dt) (h2 : k < 2 ^ 63) :
    ofG (dictCell dt k) = some (.int (k : Int)) := by
  cases dt <;> simp only [dictCell, ofG, dictRoom] at * <;>
    (rw [BitVec.toInt_eq_toNat_of_lt] <;> rw [BitVec.toNat_ofNat] <;> simp <;> omega)

/-- Encoding a list succeeds exactly if every string is known; the result lists the numbers. -/
theorem encode_spec {p : Nat} {t d : Str} {dt : Meta.DictType} {kv : Meta.Kv} (ss : List Str) :
    (∀ l, encodeDictValues p t d dt kv (ss.map fun s => some (.str s)) = .ok l →
      (∀ s ∈ ss, ∃ k, Meta.dictGetKey p t d s kv = .ok k) ∧
      ∀ c, some c ∈ l ↔ ∃ s ∈ ss, ∃ k, Meta.dictGetKey p t d s kv = .ok k ∧ ofG (dictCell dt k) = some c) ∧
    ((∀ s ∈ ss, ∃ k, Meta.dictGetKey p t d s kv = .ok k) →
      ∃ l, encodeDictValues p t d dt kv (ss.map fun s => some (.str s)) = .ok l ∧ l.length = ss.length) := by
  induction ss with
  | nil =>
    refine ⟨fun l h => ?_, fun _ => ⟨[], rfl, rfl⟩⟩
    cases h; simp
  | cons s ss ih =>
    refine ⟨fun l h => ?_, fun h => ?_⟩
    · simp only [List.map_cons] at h
      unfold encodeDictValues at h
      cases hk : Meta.dictGetKey p t d s kv with
      | error x => rw [hk] at h; cases h
      | ok k =>
        rw [hk] at h
        dsimp only at h
        cases hr : encodeDictValues p t d dt kv (ss.map fun s => some (.str s)) with
        | error x => rw [hr] at h; cases h
        | ok l' =>
          rw [hr] at h
          cases h
          obtain ⟨h1, h2⟩ := ih.1 l' hr
          refine ⟨?_, fun c => ?_⟩
          · intro s' hs'
            rcases List.mem_cons.1 hs' with rfl | hs'
            · exact ⟨k, hk⟩
            · exact h1 s' hs'
          · simp only [List.mem_cons, exists_eq_or_imp, h2, hk, Except.ok.injEq, exists_eq_left']
            rw [eq_comm]
    · obtain ⟨k, hk⟩ := h s (by simp)
      obtain ⟨l, hl, hlen⟩ := ih.2 fun s' hs' => h s' (by simp [hs'])
      refine ⟨ofG (dictCell dt k) :: l, ?_, by simp [hlen]⟩
      simp only [List.map_cons]
      unfold encodeDictValues
      rw [hk]
      dsimp only
      rw [hl]

/-- **C81 (part).** After every history of metadata requests, a filter 'equals' by known strings on a
dictionary-encoded property is built, and selects a row holding the encoding of a string `s` exactly if
`s` is listed. Missing: strings no row ever had (`C81_violated`), and narrow dictionaries with more strings
than their range. -/
theorem C81_partial {Q : Type} {E : Meta.Env Q} (sys : Str → Str) {p : Nat} {t : Str} {r : Meta.Property} {dt : Meta.DictType}
    (hdt : r.dictType = some dt) (hw : '/' ∉ t ∧ '/' ∉ r.columnName sys) {n : Nat} {kv : Meta.Kv}
    (h : Meta.Runs E (Meta.Req.NoPut p t (r.columnName sys)) [] n kv) (hn : n < 2 ^ 62) (hroom : n < dictRoom dt)
    (ss : List Str) (hss : ss ≠ []) (hknown : ∀ s ∈ ss, ∃ k, Meta.dictGetKey p t (r.columnName sys) s kv = .ok k) (S : Sem) :
    ∃ e, propExpression sys p t r kv .eq (some (ss.map fun s => some (.str s))) = .ok e ∧
      ∀ (row : QRow) (s : Str) (k : Nat), Meta.dictGetKey p t (r.columnName sys) s kv = .ok k →
        row (r.columnName sys) = ofG (dictCell dt k) → (Selects S row e ↔ s ∈ ss) := by
  obtain ⟨hi, -, hl⟩ := h.dict hw (Meta.DInv.empty p t _) (by simp only [Meta.dictLast, Meta.getK, Meta.Kv.get]; simp; omega)
  have hl' : Meta.dictLast p t (r.columnName sys) kv ≤ n := by simpa [Meta.dictLast, Meta.getK, Meta.Kv.get] using hl
  have hsmall : ∀ s k, Meta.dictGetKey p t (r.columnName sys) s kv = .ok k → k ≤ n := by
    intro s k hk
    obtain ⟨h4, h5⟩ := (Meta.getKey_iff hi s k).mp hk
    obtain ⟨k', e', -, h6, -⟩ := hi.val s _ h4
    have := Meta.le64_inj h5 (by omega) e'
    omega
  obtain ⟨l, hl, hlen⟩ := (encode_spec (p := p) (t := t) (d := r.columnName sys) (dt := dt) (kv := kv) ss).2 hknown
  have hl0 : l ≠ [] := by
    intro h0
    rw [h0] at hlen
    cases ss with
    | nil => exact hss rfl
    | cons _ _ => simp at hlen
  obtain ⟨e, he⟩ := (C49_partial S (fun _ => none) (r.columnName sys) l).1.2 hl0
  refine ⟨e, ?_, ?_⟩
  · unfold propExpression
    dsimp only
    rw [hdt]
    dsimp only
    rw [hl]
    exact he
  · intro row s k hk hrow
    have hk1 := hsmall s k hk
    rw [(C49_partial S row (r.columnName sys) l).2.1 e he, hrow, ofG_dictCell dt k (by omega) (by omega)]
    have hmem := (((encode_spec (p := p) (t := t) (d := r.columnName sys) (dt := dt) (kv := kv) ss).1 l hl).2 (.int (k : Int)))
    simp only [Option.some.injEq, exists_eq_left']
    rw [hmem]
    constructor
    · rintro ⟨s', hs', k', hk', hc⟩
      have hk2 := hsmall s' k' hk'
      rw [ofG_dictCell dt k' (by omega) (by omega)] at hc
      simp only [Option.some.injEq, Cell.int.injEq] at hc
      have : k' = k := by omega
      subst this
      rw [(Meta.C29_bijection hw h hn).1 s s' k' hk hk']
      exact hs'
    · intro hs
      exact ⟨s, hs, k, hk, ofG_dictCell dt k (by omega) (by omega)⟩

/-- **C81 is violated by unknown strings**: filtering by a string which no row ever had fails the whole query,
also if other, known strings are listed. -/
theorem C81_violated (sys : Str → Str) {p : Nat} {t : Str} {r : Meta.Property} {dt : Meta.DictType}
    (hdt : r.dictType = some dt) (kv : Meta.Kv) (ss : List Str) (s : Str) (hs : s ∈ ss)
    (hun : ∀ k, Meta.dictGetKey p t (r.columnName sys) s kv ≠ .ok k) (e : Expr) :
    propExpression sys p t r kv .eq (some (ss.map fun s => some (.str s))) ≠ .ok e := by
  intro h
  unfold propExpression at h
  dsimp only at h
  rw [hdt] at h
  dsimp only at h
  cases hr : encodeDictValues p t (r.columnName sys) dt kv (ss.map fun s => some (.str s)) with
  | error x => rw [hr] at h; cases h
  | ok l =>
    obtain ⟨k, hk⟩ := ((encode_spec ss).1 l hr).1 s hs
    exact hun k hk

/-- After three strings were encoded: a filter by two of them meets the hypotheses of `C81_partial`; a filter
by a fourth one those of `C81_violated`. -/
example : (∀ dt, ∃ kv, Meta.Runs Meta.exEnv (Meta.Req.NoPut 1 Meta.kEvents ((Ingest.exDict dt).columnName id)) [] 3 kv ∧
    ∀ k, Meta.dictGetKey 1 Meta.kEvents ((Ingest.exDict dt).columnName id) (decimal 3) kv ≠ .ok k) := by
  intro dt
  have hw : '/' ∉ Meta.kEvents ∧ '/' ∉ (Ingest.exDict dt).columnName id := ⟨by unfold Meta.kEvents; decide +kernel, by
    show '/' ∉ 'e' :: '_' :: (("str".toList) ++ '_' :: decimal 0)
    decide +kernel⟩
  obtain ⟨kv, h1, h2, h3, h4⟩ := Ingest.fill Meta.exEnv (p := 1) hw 3 (by omega)
  refine ⟨kv, h1, fun k hk => ?_⟩
  rw [Meta.dictGetKey, h4 3 (Nat.le_refl _)] at hk
  cases hk

end OptiPrism.Query
