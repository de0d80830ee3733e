import Verif.Platform.Routes

/-!
# Lemmas on the table of routes
-/

namespace OptiPrism.Platform

open OptiPrism.Meta

/-! ## Words -/

def Word.all : List Word := [.api, .v1, .ingest, .track, .identify, .organizations, .projects, .accounts, .admin, .backups, .backup, .settings, .auth,
  .signup, .login, .refreshToken, .switchOrganization, .profile, .name, .email, .password, .setPassword, .setEmail, .schema, .events, .properties,
  .customEvents, .groups, .propertyValues, .eventProperties, .groupProperties, .dashboards, .reports, .bookmarks, .eventRecords, .search, .queries,
  .eventSegmentation, .funnel, .groupRecords]

theorem Word.mem_all (w : Word) : w ∈ Word.all := by cases w <;> decide

set_option maxRecDepth 100000 in
theorem words_ok : (Word.all.all fun w => decide (parseU64 w.str = none) && decide ('%' ∉ w.str) && decide (w.str ≠ []) &&
    Word.all.all fun w' => decide (w.str = w'.str → w = w')) = true := by
  decide +kernel

theorem Word.facts (w : Word) : parseU64 w.str = none ∧ '%' ∉ w.str ∧ w.str ≠ [] ∧ ∀ w' : Word, w.str = w'.str → w = w' := by
  have h := words_ok
  rw [List.all_eq_true] at h
  have h := h w w.mem_all
  simp only [Bool.and_eq_true, decide_eq_true_eq, List.all_eq_true] at h
  exact ⟨h.1.1.1, h.1.1.2, h.1.2, fun w' => h.2 w' w'.mem_all⟩

theorem Word.str_inj {w w' : Word} (h : w.str = w'.str) : w = w' := w.facts.2.2.2 w' h

/-! ## Patterns -/

/-- Names of parameters do not matter for matching. -/
def sameShape : RoutePat → RoutePat → Bool
  | [], [] => true
  | .lit w :: q, .lit w' :: q' => decide (w = w') && sameShape q q'
  | .par _ :: q, .par _ :: q' => sameShape q q'
  | _, _ => false

def parCount : RoutePat → Nat
  | [] => 0
  | .lit _ :: q => parCount q
  | .par _ :: q => parCount q + 1

theorem take_length : ∀ {q : RoutePat} {p ps : List Str}, takeParams q p = some ps → ps.length = parCount q
  | [], [], ps, h => by simp only [takeParams, Option.some.injEq] at h; subst h; rfl
  | [], _ :: _, _, h => by simp [takeParams] at h
  | .lit _ :: _, [], _, h => by simp [takeParams] at h
  | .par _ :: _, [], _, h => by simp [takeParams] at h
  | .lit w :: q, s :: p, ps, h => by
    simp only [takeParams] at h
    split at h
    · exact take_length (q := q) h
    · cases h
  | .par _ :: q, s :: p, ps, h => by
    simp only [takeParams] at h
    split at h
    · cases h
    · cases e : takeParams q p with
      | none => rw [e] at h; cases h
      | some l =>
        rw [e] at h
        simp only [Option.map_some, Option.some.injEq] at h
        subst h
        simp [parCount, take_length e]

theorem fits_lit {w : Word} {q : RoutePat} {s : Str} {p : List Str} : fits (s :: p) (.lit w :: q) = true ↔ s = w.str ∧ fits p q = true := by
  simp only [fits, takeParams]
  split <;> simp_all

theorem fits_par {n : Param} {q : RoutePat} {s : Str} {p : List Str} : fits (s :: p) (.par n :: q) = true ↔ s ≠ [] ∧ fits p q = true := by
  simp only [fits, takeParams]
  split
  · simp_all
  · cases takeParams q p <;> simp_all

theorem fits_nil {q : RoutePat} : fits [] q = true ↔ q = [] := by
  cases q with
  | nil => simp [fits, takeParams]
  | cons a q => cases a <;> simp [fits, takeParams]

theorem fits_cons {s : Str} {p : List Str} : fits (s :: p) [] = false := by simp [fits, takeParams]

/-- Of two different patterns that match one path, one comes before the other. -/
theorem fits_cases : ∀ {p : List Str} {q q' : RoutePat}, fits p q = true → fits p q' = true → before q q' = false → before q' q = false →
    sameShape q q' = true
  | [], q, q', h, h', _, _ => by
    rw [fits_nil] at h h'
    subst h; subst h'; rfl
  | s :: p, [], q', h, _, _, _ => by rw [fits_cons] at h; cases h
  | s :: p, _ :: _, [], _, h', _, _ => by rw [fits_cons] at h'; cases h'
  | s :: p, .lit w :: q, .lit w' :: q', h, h', b, b' => by
    rw [fits_lit] at h h'
    have e : w = w' := Word.str_inj (h.1.symm.trans h'.1)
    subst e
    simp only [before, decide_true, Bool.true_and] at b b'
    simp only [sameShape, decide_true, Bool.true_and]
    exact fits_cases h.2 h'.2 b b'
  | s :: p, .par _ :: q, .par _ :: q', h, h', b, b' => by
    rw [fits_par] at h h'
    simp only [before] at b b'
    simp only [sameShape]
    exact fits_cases h.2 h'.2 b b'
  | s :: p, .lit _ :: q, .par _ :: q', _, _, b, _ => by simp [before] at b
  | s :: p, .par _ :: q, .lit _ :: q', _, _, _, b' => by simp [before] at b'

theorem before_irrefl : ∀ q : RoutePat, before q q = false
  | [] => rfl
  | .lit w :: q => by simp [before, before_irrefl q]
  | .par _ :: q => by simp [before, before_irrefl q]

/-! ## The table -/

set_option maxRecDepth 100000 in
/-- Routes of one shape have one pattern, and one handler for each method. -/
theorem table_ok : (routes.all fun r => routes.all fun r' => !sameShape r.pattern r'.pattern ||
    (decide (r.pattern = r'.pattern) && (!decide (r.meth = r'.meth) || decide (r.handler = r'.handler)))) = true := by
  decide +kernel

theorem table {r r' : Route} (h : r ∈ routes) (h' : r' ∈ routes) (s : sameShape r.pattern r'.pattern = true) :
    r.pattern = r'.pattern ∧ (r.meth = r'.meth → r = r') := by
  have t := table_ok
  rw [List.all_eq_true] at t
  have t := t r h
  rw [List.all_eq_true] at t
  have t := t r' h'
  rw [s] at t
  simp only [Bool.not_true, Bool.false_or, Bool.and_eq_true, decide_eq_true_eq, Bool.or_eq_true, Bool.not_eq_true', decide_eq_false_iff_not] at t
  refine ⟨t.1, fun m => ?_⟩
  cases r; cases r'
  simp only at t m
  have a := t.1
  have b := t.2.resolve_left (fun c => c m)
  subst a; subst b; subst m; rfl

theorem sameShape_refl : ∀ q : RoutePat, sameShape q q = true
  | [] => rfl
  | .lit w :: q => by simp [sameShape, sameShape_refl q]
  | .par _ :: q => by simp [sameShape, sameShape_refl q]

/-- The pattern chosen. -/
theorem chosen_iff {p : List Str} {q : RoutePat} : chosen routes p = some q ↔
    (∃ r ∈ routes, r.pattern = q) ∧ fits p q = true ∧ ∀ r ∈ routes, fits p r.pattern = true → before r.pattern q = false := by
  have good : ∀ q', (fits p q' && (routes.map Route.pattern).all fun q'' => !(fits p q'' && before q'' q')) = true ↔
      fits p q' = true ∧ ∀ r ∈ routes, fits p r.pattern = true → before r.pattern q' = false := by
    intro q'
    simp only [Bool.and_eq_true, List.all_eq_true, List.mem_map, forall_exists_index, and_imp, forall_apply_eq_imp_iff₂, Bool.not_eq_true',
      Bool.and_eq_false_iff]
    constructor
    · intro h
      refine ⟨h.1, fun r hr f => ?_⟩
      rcases h.2 r hr with e | e
      · rw [f] at e; cases e
      · exact e
    · intro h
      refine ⟨h.1, fun r hr => ?_⟩
      cases f : fits p r.pattern with
      | false => exact .inl rfl
      | true => exact .inr (h.2 r hr f)
  unfold chosen
  constructor
  · intro h
    have m := List.mem_of_find?_eq_some h
    have g := List.find?_some h
    rw [good] at g
    obtain ⟨r, hr, e⟩ := List.mem_map.1 m
    exact ⟨⟨r, hr, e⟩, g⟩
  · rintro ⟨⟨r, hr, e⟩, g⟩
    subst e
    cases f : (routes.map Route.pattern).find? fun q' => fits p q' && (routes.map Route.pattern).all fun q'' => !(fits p q'' && before q'' q') with
    | none =>
      have n := List.find?_eq_none.1 f r.pattern (List.mem_map_of_mem hr)
      exact absurd ((good _).2 g) n
    | some q' =>
      have m := List.mem_of_find?_eq_some f
      have g' := List.find?_some f
      rw [good] at g'
      obtain ⟨r', hr', e⟩ := List.mem_map.1 m
      subst e
      have s := fits_cases g'.1 g.1 (g.2 r' hr' g'.1) (g'.2 r hr g.1)
      rw [(table hr' hr s).1]

theorem chosen_none {p : List Str} : (∀ r ∈ routes, fits p r.pattern = false) → chosen routes p = none := by
  intro h
  cases e : chosen routes p with
  | none => rfl
  | some q =>
    rw [chosen_iff] at e
    obtain ⟨⟨r, hr, rfl⟩, f, _⟩ := e
    rw [h r hr] at f; cases f

/-- The request takes this route. -/
structure Takes (p : List Str) (m : Meth) (r : Route) : Prop where
  mem : r ∈ routes
  meth : r.meth = m.route
  fits : fits p r.pattern = true
  first : ∀ r' ∈ routes, Platform.fits p r'.pattern = true → before r'.pattern r.pattern = false

theorem Takes.found {p : List Str} {m : Meth} {r : Route} (h : Takes p m r) :
    (routes.find? fun r' => decide (r'.pattern = r.pattern ∧ r'.meth = m.route)) = some r := by
  cases e : routes.find? fun r' => decide (r'.pattern = r.pattern ∧ r'.meth = m.route) with
  | none =>
    have n := List.find?_eq_none.1 e r h.mem
    simp [h.meth] at n
  | some r' =>
    have m' := List.mem_of_find?_eq_some e
    have g := List.find?_some e
    simp only [decide_eq_true_eq] at g
    rw [(table m' h.mem (by rw [g.1]; exact sameShape_refl _)).2 (g.2.trans h.meth.symm)]

theorem dispatch_takes {D : Decode} {token : Bool} {m : Meth} {p : List Str} {r : Route} (h : Takes p m r) :
    dispatch D token m p = if r.handler.needsToken && !token then .unauthorized else
      match extract D ((takeParams r.pattern p).getD []) r.handler.paths with
      | .error e => e
      | .ok args => .run r.handler (r.handler.order args) := by
  have c : chosen routes p = some r.pattern := chosen_iff.2 ⟨⟨r, h.mem, rfl⟩, h.fits, h.first⟩
  unfold dispatch
  rw [c]
  simp only
  rw [h.found]
  rfl

theorem extract_error {D : Decode} {ps : List Str} {e : Dispatch} : ∀ {l : List (List PKind)}, extract D ps l = .error e → e = .badPath ∨ e = .wrongNumber
  | [], h => by cases h
  | ks :: rest, h => by
    simp only [extract] at h
    split at h
    · cases h; exact .inl rfl
    · split at h
      · cases h; exact .inr rfl
      · split at h
        · cases h; exact .inl rfl
        · cases e' : extract D ps rest with
          | ok a => rw [e'] at h; cases h
          | error e'' => rw [e'] at h; cases h; exact extract_error e'

/-- What it takes for a handler to run. -/
theorem dispatch_run {D : Decode} {token : Bool} {m : Meth} {p : List Str} {h : Handler} {args : List Arg} :
    dispatch D token m p = .run h args ↔ ∃ r ps as, Takes p m r ∧ r.handler = h ∧ takeParams r.pattern p = some ps ∧
      (h.needsToken = true → token = true) ∧ extract D ps h.paths = .ok as ∧ args = h.order as := by
  constructor
  · intro e
    have back : ∀ r, Takes p m r → ∃ r ps as, Takes p m r ∧ r.handler = h ∧ takeParams r.pattern p = some ps ∧
        (h.needsToken = true → token = true) ∧ extract D ps h.paths = .ok as ∧ args = h.order as := by
      intro r t
      rw [dispatch_takes t] at e
      split at e
      · cases e
      · rename_i n
        cases tp : takeParams r.pattern p with
        | none => have f := t.fits; rw [fits, tp] at f; cases f
        | some ps =>
          rw [tp] at e
          simp only [Option.getD_some] at e
          cases x : extract D ps r.handler.paths with
          | error e' =>
            rw [x] at e
            simp only at e
            rcases extract_error x with y | y <;> rw [y] at e <;> cases e
          | ok as =>
            rw [x] at e
            simp only [Dispatch.run.injEq] at e
            obtain ⟨rfl, rfl⟩ := e
            refine ⟨r, ps, as, t, rfl, tp, fun nt => ?_, x, rfl⟩
            rw [nt] at n
            simpa using n
    cases c : chosen routes p with
    | none => unfold dispatch at e; rw [c] at e; cases e
    | some q =>
      have c' := chosen_iff.1 c
      cases f : routes.find? fun r => decide (r.pattern = q ∧ r.meth = m.route) with
      | none => unfold dispatch at e; rw [c] at e; simp only at e; rw [f] at e; cases e
      | some r =>
        have mem := List.mem_of_find?_eq_some f
        have g := List.find?_some f
        simp only [decide_eq_true_eq] at g
        obtain ⟨rfl, g⟩ := g
        exact back r ⟨mem, g, c'.2.1, c'.2.2⟩
  · rintro ⟨r, ps, as, t, rfl, tp, n, x, rfl⟩
    rw [dispatch_takes t, tp, if_neg, Option.getD_some, x]
    cases hn : r.handler.needsToken with
    | false => simp
    | true => simp [n hn]

end OptiPrism.Platform
