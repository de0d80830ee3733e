import Verif.Query.AggProps

/-! Properties C54 and C82: aggregates of per-user values. -/

namespace OptiPrism.Query

section
variable {G I : Type} [DecidableEq G]

/-- Specification: the row belongs to user `u` in group `g`, and the user is selected. -/
def ofUser (exist : Option (Int → Bool)) (g : G) (u : Int) (r : ARow G) : Bool :=
  r.user == some u && r.group == g && (match exist with | none => true | some e => e u)

/-- Rows are grouped by user: between two rows of a user there are only rows of that user. -/
def Grouped (rows : List (ARow G)) : Prop :=
  ∀ x y z, List.Sublist [x, y, z] rows → x.user = z.user → y.user = x.user

/-- The row belongs to a selected user. -/
def selRow (exist : Option (Int → Bool)) (r : ARow G) : Bool :=
  match exist, r.user with
  | none, _ => true
  | some e, some u => e u
  | some _, none => false

/-- One used row, seen by its group. -/
def gstep (B : Bounds) (op : AggOp) (N : Inner I) (b : Option (PGroup I)) (r : ARow G) :
    Option (PGroup I) :=
  some (((b.getD (PGroup.new N (op.new B))).seen (r.user.getD 0)).use N (r.user.getD 0) r.val)

/-- What makes `skip` harmless. -/
def NoSkip (distinct : Bool) (exist : Option (Int → Bool)) (rows : List (ARow G)) : Prop :=
  (∀ r ∈ rows, r.user ≠ some 0) ∨ (distinct = false ∧ exist = none)

theorem pRow_eq (B : Bounds) (op : AggOp) (N : Inner I) (distinct : Bool)
    (exist : Option (Int → Bool)) (st : PState G I) (r : ARow G) (hu : r.user ≠ none)
    (hz : r.user ≠ some 0 ∨ (distinct = false ∧ exist = none ∧ st.skip = false)) :
    ∃ st', pRow B op N distinct exist false st r = some st' ∧
      st'.groups = (if selRow exist r then
        (fun x => if x = r.group then gstep B op N (st.groups r.group) r else st.groups x)
        else st.groups) ∧
      (distinct = false → exist = none → st'.skip = false) := by
  unfold pRow
  cases hr : r.user with
  | none => exact absurd hr hu
  | some u =>
    have hsk : (st.skip && u == 0) = false := by
      rcases hz with h | h
      · have : u ≠ 0 := fun e => h (by rw [hr, e])
        simp [this]
      · simp [h.2.2]
    dsimp only
    rw [hsk]
    cases exist with
    | none =>
      refine ⟨_, rfl, ?_, fun h _ => h⟩
      simp only [selRow, if_true]
      funext x
      simp [setGroup, gstep, hr]
    | some e =>
      cases he : e u with
      | false =>
        refine ⟨{ st with skip := true }, by simp [he], ?_, by simp⟩
        simp [selRow, hr, he]
      | true =>
        refine ⟨⟨distinct, setGroup st.groups r.group
          ((((st.groups r.group).getD (PGroup.new N (op.new B))).seen u).use N u r.val)⟩,
          by simp [he], ?_, by simp⟩
        simp only [selRow, hr, he, if_true]
        funext x
        simp [setGroup, gstep, hr]

/-- The rows of the selected users in a group. -/
def usedRows (exist : Option (Int → Bool)) (g : G) (rows : List (ARow G)) : List (ARow G) :=
  rows.filter fun r => selRow exist r && r.group == g

theorem foldlM_pRow (B : Bounds) (op : AggOp) (N : Inner I) (distinct : Bool)
    (exist : Option (Int → Bool)) (rows : List (ARow G)) : ∀ (st : PState G I),
    (∀ r ∈ rows, r.user ≠ none) →
    ((∀ r ∈ rows, r.user ≠ some 0) ∨ (distinct = false ∧ exist = none ∧ st.skip = false)) →
    ∃ st', rows.foldlM (pRow B op N distinct exist false) st = some st' ∧
      ∀ g, st'.groups g = (usedRows exist g rows).foldl (gstep B op N) (st.groups g) := by
  induction rows with
  | nil => intro st _ _; exact ⟨st, rfl, fun g => rfl⟩
  | cons r rows ih =>
    intro st hu hz
    obtain ⟨s1, e1, g1, k1⟩ := pRow_eq B op N distinct exist st r (hu r (by simp))
      (hz.imp (fun h => h r (by simp)) id)
    obtain ⟨s2, e2, g2⟩ := ih s1 (fun x hx => hu x (List.mem_cons_of_mem _ hx))
      (hz.imp (fun h x hx => h x (List.mem_cons_of_mem _ hx))
        (fun h => ⟨h.1, h.2.1, k1 h.1 h.2.1⟩))
    refine ⟨s2, ?_, ?_⟩
    · rw [List.foldlM_cons, e1]; exact e2
    · intro g
      rw [g2 g, g1]
      unfold usedRows
      by_cases hs : selRow exist r = true
      · by_cases hg : r.group = g
        · rw [List.filter_cons_of_pos (by simp [hs, hg]), List.foldl_cons]
          simp [hs, hg]
        · rw [List.filter_cons_of_neg (by simp [hg])]
          have : ¬ g = r.group := fun e => hg e.symm
          simp [hs, this]
      · rw [List.filter_cons_of_neg (by simp [hs])]
        simp [hs]

theorem pBatches_flatten (B : Bounds) (op : AggOp) (N : Inner I) (distinct : Bool)
    (exist : Option (Int → Bool)) (hf : Bool) (batches : List (List (ARow G))) :
    ∀ (st : PState G I), pBatches B op N distinct exist hf st batches =
      batches.flatten.foldlM (pRow B op N distinct exist hf) st := by
  induction batches with
  | nil => intro st; rfl
  | cons b bs ih =>
    intro st
    unfold pBatches
    rw [List.foldlM_cons, List.flatten_cons, List.foldlM_append]
    congr 1
    funext s
    exact ih s

/-- The inner value of a user over some rows. -/
def innerOf (N : Inner I) (P : List (ARow G)) (u : Int) : I :=
  (P.filter fun r => r.user == some u).foldl (fun i r => N.step i r.val) N.init

theorem innerOf_append_ne (N : Inner I) (P : List (ARow G)) (r : ARow G) {u w : Int}
    (hw : r.user = some w) (h : u ≠ w) : innerOf N (P ++ [r]) u = innerOf N P u := by
  unfold innerOf
  rw [List.filter_append]
  have : [r].filter (fun r => r.user == some u) = [] := by
    have : ¬ w = u := fun e => h e.symm
    simp [hw, this]
  rw [this, List.append_nil]

theorem innerOf_append_eq (N : Inner I) (P : List (ARow G)) (r : ARow G) {w : Int}
    (hw : r.user = some w) : innerOf N (P ++ [r]) w = N.step (innerOf N P w) r.val := by
  unfold innerOf
  rw [List.filter_append]
  have : [r].filter (fun r => r.user == some w) = [r] := by simp [hw]
  rw [this, List.foldl_append]; rfl

theorem innerOf_fresh (N : Inner I) (P : List (ARow G)) {w : Int}
    (h : ∀ r ∈ P, r.user ≠ some w) : innerOf N P w = N.init := by
  unfold innerOf
  have : P.filter (fun r => r.user == some w) = [] := by
    rw [List.filter_eq_nil_iff]
    intro r hr he
    exact h r hr (by simpa using he)
  rw [this]; rfl

/-- The state of a group after some rows. -/
def GInv (B : Bounds) (op : AggOp) (N : Inner I) (P : List (ARow G)) (b : Option (PGroup I)) :
    Prop :=
  (P = [] ∧ b = none) ∨
  ∃ (bb : PGroup I) (u : Int) (us : List Int) (Q : List (ARow G)) (l : ARow G),
    P = Q ++ [l] ∧ l.user = some u ∧ b = some bb ∧ bb.first = false ∧ bb.last = u ∧
    (us ++ [u]).Nodup ∧ (∀ x, x ∈ us ++ [u] ↔ ∃ r ∈ P, r.user = some x) ∧
    bb.outer = feed (op.new B) (us.map fun x => N.out (innerOf N P x)) ∧
    bb.inner = innerOf N P u

theorem gstep_inv (B : Bounds) (op : AggOp) (N : Inner I) (P : List (ARow G))
    (b : Option (PGroup I)) (r : ARow G) (h : GInv B op N P b) (hg : Grouped (P ++ [r]))
    (hu : r.user ≠ none) : GInv B op N (P ++ [r]) (gstep B op N b r) := by
  cases hr : r.user with
  | none => exact absurd hr hu
  | some w =>
  right
  rcases h with ⟨rfl, rfl⟩ | ⟨bb, u, us, Q, l, hP, hl, rfl, hfirst, hlast, hnd, hmem, hout, hin⟩
  · refine ⟨_, w, [], [], r, rfl, hr, rfl, ?_, ?_, by simp, ?_, ?_, ?_⟩
    · simp [gstep, PGroup.new, PGroup.seen, PGroup.use, hr]
    · simp [gstep, PGroup.new, PGroup.seen, PGroup.use, hr]
    · intro x; simp [hr, eq_comm]
    · simp [gstep, PGroup.new, PGroup.seen, PGroup.use, hr, feed]
    · rw [innerOf_append_eq N [] r hr, innerOf_fresh N [] (by simp)]
      simp [gstep, PGroup.new, PGroup.seen, PGroup.use, hr]
  · by_cases huw : w = u
    · subst huw
      have hs : gstep B op N (some bb) r = some { bb with inner := N.step bb.inner r.val } := by
        simp [gstep, PGroup.seen, PGroup.use, hr, hfirst, hlast]
      refine ⟨_, w, us, P, r, rfl, hr, hs, hfirst, hlast, hnd, ?_, ?_, ?_⟩
      · intro x
        rw [hmem x]
        constructor
        · rintro ⟨q, hq, hqx⟩; exact ⟨q, List.mem_append_left _ hq, hqx⟩
        · rintro ⟨q, hq, hqx⟩
          rcases List.mem_append.mp hq with hq | hq
          · exact ⟨q, hq, hqx⟩
          · rw [List.mem_singleton.mp hq, hr] at hqx
            cases hqx
            exact ⟨l, by rw [hP]; simp, hl⟩
      · show bb.outer = _
        rw [hout]
        congr 1
        apply List.map_congr_left
        intro x hx
        have : x ≠ w := by
          intro e; subst e
          rw [List.nodup_append] at hnd
          exact hnd.2.2 x hx x (by simp) rfl
        rw [innerOf_append_ne N P r hr this]
      · show N.step bb.inner r.val = _
        rw [innerOf_append_eq N P r hr, hin]
    · have hfresh : ∀ q ∈ P, q.user ≠ some w := by
        intro q hq hqw
        rw [hP] at hq
        rcases List.mem_append.mp hq with hq | hq
        · have hsub : List.Sublist [q, l, r] (P ++ [r]) := by
            rw [hP]
            have h1 : List.Sublist [q] Q := List.singleton_sublist.mpr hq
            have := (h1.append (List.Sublist.refl [l])).append (List.Sublist.refl [r])
            exact this
          have := hg q l r hsub (by rw [hqw, hr])
          rw [hl, hqw] at this
          cases this; exact huw rfl
        · rw [List.mem_singleton.mp hq, hl] at hqw
          cases hqw; exact huw rfl
      have hne : u ≠ w := fun e => huw e.symm
      have hs : gstep B op N (some bb) r = some { bb with
          outer := bb.outer.accumulate (N.out bb.inner), last := w,
          inner := N.step N.init r.val } := by
        simp [gstep, PGroup.seen, PGroup.use, hr, hfirst, hlast, hne]
      refine ⟨_, w, us ++ [u], P, r, rfl, hr, hs, hfirst, rfl, ?_, ?_, ?_, ?_⟩
      · rw [List.nodup_append]
        refine ⟨hnd, by simp, ?_⟩
        intro a ha c hc e
        rw [List.mem_singleton.mp hc] at e
        subst e
        obtain ⟨q, hq, hqx⟩ := (hmem a).mp ha
        exact hfresh q hq hqx
      · intro x
        rw [List.mem_append, hmem x]
        constructor
        · rintro (⟨q, hq, hqx⟩ | hx)
          · exact ⟨q, List.mem_append_left _ hq, hqx⟩
          · exact ⟨r, by simp, by rw [hr, List.mem_singleton.mp hx]⟩
        · rintro ⟨q, hq, hqx⟩
          rcases List.mem_append.mp hq with hq | hq
          · exact .inl ⟨q, hq, hqx⟩
          · rw [List.mem_singleton.mp hq, hr] at hqx
            cases hqx; exact .inr (by simp)
      · show bb.outer.accumulate (N.out bb.inner) = _
        rw [hout, hin, List.map_append, feed_append]
        have hold : ∀ x ∈ us ++ [u], innerOf N (P ++ [r]) x = innerOf N P x := by
          intro x hx
          obtain ⟨q, hq, hqx⟩ := (hmem x).mp hx
          exact innerOf_append_ne N P r hr (fun e => hfresh q hq (by rw [hqx, e]))
        have h1 : us.map (fun x => N.out (innerOf N (P ++ [r]) x)) =
            us.map fun x => N.out (innerOf N P x) :=
          List.map_congr_left fun x hx => by rw [hold x (List.mem_append_left _ hx)]
        rw [h1]
        show _ = feed _ [N.out (innerOf N (P ++ [r]) u)]
        rw [hold u (by simp)]
        rfl
      · show N.step N.init r.val = _
        rw [innerOf_append_eq N P r hr, innerOf_fresh N P hfresh]

theorem foldl_gstep (B : Bounds) (op : AggOp) (N : Inner I) (rows : List (ARow G)) :
    ∀ (P : List (ARow G)) (b : Option (PGroup I)), GInv B op N P b → Grouped (P ++ rows) →
    (∀ r ∈ rows, r.user ≠ none) → GInv B op N (P ++ rows) (rows.foldl (gstep B op N) b) := by
  induction rows with
  | nil => intro P b h _ _; simpa using h
  | cons r rows ih =>
    intro P b h hg hu
    have e : P ++ r :: rows = (P ++ [r]) ++ rows := by simp
    rw [List.foldl_cons, e]
    rw [e] at hg
    apply ih _ _ _ hg (fun x hx => hu x (List.mem_cons_of_mem _ hx))
    apply gstep_inv B op N P b r h _ (hu r (by simp))
    intro x y z hs
    exact hg x y z (hs.trans (List.sublist_append_left _ _))

/-- The general form: for every group the outer function is fed with one value per user. -/
theorem pEval_feed (B : Bounds) (op : AggOp) (N : Inner I) (distinct : Bool)
    (exist : Option (Int → Bool)) (batches : List (List (ARow G)))
    (hu : ∀ r ∈ batches.flatten, r.user ≠ none) (hz : NoSkip distinct exist batches.flatten)
    (hg : Grouped batches.flatten) :
    ∃ m, pEval B op N distinct exist false batches = some m ∧ ∀ g,
      ∃ us : List Int, us.Nodup ∧
        (∀ u, u ∈ us ↔ ∃ r ∈ batches.flatten, ofUser exist g u r = true) ∧
        m g = if us = [] then none else some (feed (op.new B) (us.map fun u =>
          N.out ((batches.flatten.filter (ofUser exist g u)).foldl
            (fun i r => N.step i r.val) N.init))) := by
  obtain ⟨st, e1, e2⟩ := foldlM_pRow B op N distinct exist batches.flatten
    ⟨false, fun _ => none⟩ hu (hz.imp id fun h => ⟨h.1, h.2, rfl⟩)
  refine ⟨pFinish N st, ?_, ?_⟩
  · unfold pEval
    rw [pBatches_flatten, e1]; rfl
  · intro g
    have hinv := foldl_gstep B op N (usedRows exist g batches.flatten) [] none (.inl ⟨rfl, rfl⟩)
      (by rw [List.nil_append]; intro x y z hs
          exact hg x y z (hs.trans List.filter_sublist))
      (fun r hr => hu r (List.mem_filter.mp hr).1)
    rw [List.nil_append, ← e2 g] at hinv
    have hin : ∀ u, (usedRows exist g batches.flatten).filter (fun r => r.user == some u) =
        batches.flatten.filter (ofUser exist g u) := by
      intro u
      unfold usedRows
      rw [List.filter_filter]
      apply List.filter_congr
      intro r _
      unfold ofUser selRow
      cases exist with
      | none => simp
      | some e =>
        cases hr : r.user with
        | none => simp
        | some w =>
          by_cases hw : w = u
          · subst hw; simp [Bool.and_comm]
          · have h' : ((some w : Option Int) == some u) = false := by simpa using hw
            rw [h']; simp
    rcases hinv with ⟨hP, hb⟩ | ⟨bb, u, us, Q, l, hP, hl, hb, hfirst, hlast, hnd, hmem, hout, hinn⟩
    · refine ⟨[], by simp, ?_, ?_⟩
      · intro u
        constructor
        · intro h; simp at h
        · rintro ⟨r, hr, hro⟩
          have : r ∈ batches.flatten.filter (ofUser exist g u) := List.mem_filter.mpr ⟨hr, hro⟩
          rw [← hin u, hP] at this
          simp at this
      · simp [pFinish, hb]
    · refine ⟨us ++ [u], hnd, ?_, ?_⟩
      · intro x
        rw [hmem x]
        constructor
        · rintro ⟨r, hr, hrx⟩
          have : r ∈ (usedRows exist g batches.flatten).filter (fun r => r.user == some x) :=
            List.mem_filter.mpr ⟨hr, by simp [hrx]⟩
          rw [hin x] at this
          exact ⟨r, List.mem_filter.mp this⟩
        · rintro ⟨r, hr, hro⟩
          have : r ∈ batches.flatten.filter (ofUser exist g x) := List.mem_filter.mpr ⟨hr, hro⟩
          rw [← hin x] at this
          obtain ⟨h1, h2⟩ := List.mem_filter.mp this
          exact ⟨r, h1, by simpa using h2⟩
      · have hne : us ++ [u] ≠ [] := by simp
        rw [if_neg hne]
        simp only [pFinish, hb, Option.map_some]
        rw [hout, hinn, List.map_append, feed_append]
        unfold innerOf
        simp only [hin]
        rfl

theorem fold_count (l : List (ARow G)) : ∀ n : Nat, ∀ wide,
    l.foldl (fun i r => (countInner false wide).step i r.val) n = n + l.length := by
  induction l with
  | nil => intro n w; rfl
  | cons r l ih =>
    intro n w
    rw [List.foldl_cons, ih]
    simp [countInner]; omega

theorem fold_distinct (l : List (ARow G)) (h : l ≠ []) : ∀ n : Nat,
    l.foldl (fun i r => (countInner true false).step i r.val) n = 1 := by
  induction l with
  | nil => exact absurd rfl h
  | cons r l ih =>
    intro n
    rw [List.foldl_cons]
    cases l with
    | nil => simp [countInner]
    | cons a b => exact ih (by simp) _

/-- C54: the outer function gets exactly one number per selected user of the group: the number of
that user's rows (1 when counting distinct users), for every batching. `wide` is the decimal
accumulator used for sums, whose unit is 10^16. `_partial`: no filter (event segmentation passes
none), every row has a user, and either no row has user 0 or nothing is skipped; see
`C54_filter_violated`, `C54_zero_violated`, `C54_null_violated`. -/
theorem C54_partial (B : Bounds) (op : AggOp) (distinct wide : Bool)
    (hdw : ¬ (distinct = true ∧ wide = true))
    (exist : Option (Int → Bool)) (batches : List (List (ARow G)))
    (hu : ∀ r ∈ batches.flatten, r.user ≠ none) (hz : NoSkip distinct exist batches.flatten)
    (hg : Grouped batches.flatten) :
    ∃ m, pEval B op (countInner distinct wide) distinct exist false batches = some m ∧ ∀ g,
      ∃ (us : List Int) (vs : List Rat), us.Nodup ∧
        (∀ u, u ∈ us ↔ ∃ r ∈ batches.flatten, ofUser exist g u r = true) ∧
        vs = us.map (fun u => (if distinct then (1 : Rat) else
          ((batches.flatten.countP (ofUser exist g u) : Nat) : Rat)) * (if wide then (10 : Rat) ^ 16 else 1)) ∧
        (us = [] → m g = none) ∧
        (us ≠ [] → B.Fit vs → ∃ f x, m g = some f ∧ f.result = some x ∧ IsAgg op vs x) := by
  obtain ⟨m, hm, h⟩ := pEval_feed B op (countInner distinct wide) distinct exist batches hu hz hg
  refine ⟨m, hm, fun g => ?_⟩
  obtain ⟨us, h1, h2, h3⟩ := h g
  refine ⟨us, _, h1, h2, rfl, fun e => by rw [h3, if_pos e], fun hne hB => ?_⟩
  have hval : us.map (fun u => (countInner distinct wide).out
      ((batches.flatten.filter (ofUser exist g u)).foldl
        (fun i r => (countInner distinct wide).step i r.val) (countInner distinct wide).init)) =
      us.map (fun u => (if distinct then (1 : Rat) else
          ((batches.flatten.countP (ofUser exist g u) : Nat) : Rat)) * (if wide then (10 : Rat) ^ 16 else 1)) := by
    apply List.map_congr_left
    intro u hmem
    cases distinct with
    | false =>
      rw [fold_count, List.countP_eq_length_filter]
      cases wide <;> simp [countInner, Rat.mul_one]
    | true =>
      cases wide with
      | true => exact absurd ⟨rfl, rfl⟩ hdw
      | false =>
        rw [fold_distinct]
        · simp [countInner, Rat.mul_one]
        · obtain ⟨r, hr, hro⟩ := (h2 u).mp hmem
          exact List.ne_nil_of_mem (List.mem_filter.mpr ⟨hr, hro⟩)
  have hne' : us.map (fun u => (if distinct then (1 : Rat) else
      ((batches.flatten.countP (ofUser exist g u) : Nat) : Rat)) * (if wide then (10 : Rat) ^ 16 else 1)) ≠ [] := by
    simpa using hne
  obtain ⟨x, x1, x2⟩ := feed_isAgg B op _ hne' hB
  exact ⟨_, x, by rw [h3, if_neg hne, hval], x1, x2⟩

/-- C54: two batchings of the same rows give the same result. -/
theorem C54_batching (B : Bounds) (op : AggOp) (N : Inner I) (distinct : Bool)
    (exist : Option (Int → Bool)) (hf : Bool) (b1 b2 : List (List (ARow G)))
    (h : b1.flatten = b2.flatten) :
    pEval B op N distinct exist hf b1 = pEval B op N distinct exist hf b2 := by
  unfold pEval
  rw [pBatches_flatten, pBatches_flatten, h]

/-- C54 is false with a filter: user 1 has no matching row, and is counted; user 3 has none either,
and is not. -/
theorem C54_filter_violated :
    ∃ rows : List (ARow Unit),
      (pEval ⟨100, -100⟩ .count (countInner false false) false none true [rows]).map
        (fun m => (m ()).bind AggFn.result) = some (some 2) ∧
      (rows.filter (fun r => r.pass == some true)).map ARow.user = [some 2] ∧
      rows.map ARow.user = [some 1, some 2, some 3] :=
  ⟨[⟨some 1, some false, none, ()⟩, ⟨some 2, some true, none, ()⟩, ⟨some 3, some false, none, ()⟩],
    by decide +kernel, by decide, by decide⟩

/-- C54 is false for the user with id 0: with distinct users, the second group of that user is
lost. -/
theorem C54_zero_violated :
    ∃ rows : List (ARow Bool),
      (pEval ⟨100, -100⟩ .count (countInner true false) true none false [rows]).map
        (fun m => (m false, m true)) = some (some (.count 1), none) ∧
      rows.map (fun r => (r.user, r.group)) = [(some 0, false), (some 0, true)] :=
  ⟨[⟨some 0, none, none, false⟩, ⟨some 0, none, none, true⟩], by decide +kernel, by decide⟩

/-- C54 is false for rows without a user (the group columns are nullable): the query panics. -/
theorem C54_null_violated :
    ∃ rows : List (ARow Unit), rows.map ARow.user = [none, some 1] ∧
      pEval ⟨100, -100⟩ .count (countInner true false) true none false [rows] = none :=
  ⟨[⟨none, none, none, ()⟩, ⟨some 1, none, none, ()⟩], by decide, by rfl⟩

/-- A case with two users in two batches. -/
def exUsers : List (List (ARow Bool)) :=
  [[⟨some 1, none, some 2, true⟩, ⟨some 1, none, some 4, true⟩],
   [⟨some 1, none, some 9, true⟩, ⟨some 2, none, some 1, true⟩, ⟨some 2, none, some 5, false⟩]]

example : (∀ r ∈ exUsers.flatten, r.user ≠ none) ∧ NoSkip true none exUsers.flatten := by
  unfold NoSkip; decide

example : Grouped exUsers.flatten := by
  have hs : List.Pairwise (fun a b : ARow Bool => ∃ u v, a.user = some u ∧ b.user = some v ∧ u ≤ v)
      exUsers.flatten := by
    simp [exUsers]
  intro x y z hsub hxz
  have := hs.sublist hsub
  simp only [List.pairwise_cons] at this
  obtain ⟨u, v, h1, h2, h3⟩ := this.1 y (by simp)
  obtain ⟨v', w, h4, h5, h6⟩ := this.2.1 z (by simp)
  rw [h1, h5] at hxz
  rw [h2] at h4
  cases h4; cases hxz
  rw [h1, h2]; congr 1; omega

example : (pEval ⟨100, -100⟩ .avg (countInner false false) false none false exUsers).map
    (fun m => (m true).bind AggFn.result) = some (some 2) := by decide +kernel

theorem fold_agg (l : List (ARow G)) (N : Inner AggFn)
    (hN : ∀ f v, N.step f v = f.accumulate (v.getD 0)) : ∀ f,
    l.foldl (fun i r => N.step i r.val) f = feed f (l.map fun r => r.val.getD 0) := by
  induction l with
  | nil => intro f; rfl
  | cons r l ih =>
    intro f
    rw [List.foldl_cons, ih, List.map_cons, hN]; rfl

/-- C82: the outer function gets, per selected user of the group, the inner aggregate of that user's
values (in units of `mul`). `_partial`: as for C54, and no value is NULL; see
`C82_null_violated`. -/
theorem C82_partial (Bi Bo : Bounds) (inner outer : AggOp) (mul : Rat)
    (exist : Option (Int → Bool)) (batches : List (List (ARow G)))
    (hu : ∀ r ∈ batches.flatten, r.user ≠ none) (hz : NoSkip false exist batches.flatten)
    (hg : Grouped batches.flatten) (hv : ∀ r ∈ batches.flatten, r.val ≠ none)
    (hBi : Bi.Fit (batches.flatten.map fun r => r.val.getD 0)) :
    ∃ m, pEval Bo outer (aggInner Bi inner mul) false exist false batches = some m ∧ ∀ g,
      ∃ (us : List Int) (vs : List Rat), us.Nodup ∧
        (∀ u, u ∈ us ↔ ∃ r ∈ batches.flatten, ofUser exist g u r = true) ∧
        vs.length = us.length ∧
        (∀ i (h1 : i < us.length) (h2 : i < vs.length), ∃ x ws,
          (batches.flatten.filter (ofUser exist g us[i])).map ARow.val = ws.map some ∧
          IsAgg inner ws x ∧ vs[i] = x * mul) ∧
        (us = [] → m g = none) ∧
        (us ≠ [] → Bo.Fit vs → ∃ f x, m g = some f ∧ f.result = some x ∧ IsAgg outer vs x) := by
  obtain ⟨m, hm, h⟩ := pEval_feed Bo outer (aggInner Bi inner mul) false exist batches hu hz hg
  refine ⟨m, hm, fun g => ?_⟩
  obtain ⟨us, h1, h2, h3⟩ := h g
  refine ⟨us, us.map (fun u => (aggInner Bi inner mul).out
      ((batches.flatten.filter (ofUser exist g u)).foldl
        (fun i r => (aggInner Bi inner mul).step i r.val) (aggInner Bi inner mul).init)),
    h1, h2, List.length_map .., ?_, fun e => by rw [h3, if_pos e], fun hne hB => ?_⟩
  · intro i hi hi2
    have hws : (batches.flatten.filter (ofUser exist g us[i])).map (fun r => r.val.getD 0) ≠ [] := by
      obtain ⟨r, hr, hro⟩ := (h2 us[i]).mp (List.getElem_mem hi)
      have := List.ne_nil_of_mem (List.mem_filter.mpr ⟨hr, hro⟩)
      simpa using this
    have hfit : Bi.Fit ((batches.flatten.filter (ofUser exist g us[i])).map
        (fun r => r.val.getD 0)) := by
      intro v hvm
      obtain ⟨r, hr, rfl⟩ := List.mem_map.mp hvm
      exact hBi _ (List.mem_map.mpr ⟨r, (List.mem_filter.mp hr).1, rfl⟩)
    obtain ⟨x, x1, x2⟩ := feed_isAgg Bi inner _ hws hfit
    refine ⟨x, _, ?_, x2, ?_⟩
    · rw [List.map_map]
      apply List.map_congr_left
      intro r hr
      have := hv r (List.mem_filter.mp hr).1
      cases hr' : r.val with
      | none => exact absurd hr' this
      | some v => simp [hr']
    · rw [List.getElem_map]
      rw [fold_agg _ (aggInner Bi inner mul) (fun _ _ => rfl)]
      show ((feed (inner.new Bi) _).result.getD 0) * mul = _
      rw [x1]; rfl
  · have hne' : us.map (fun u => (aggInner Bi inner mul).out
        ((batches.flatten.filter (ofUser exist g u)).foldl
          (fun i r => (aggInner Bi inner mul).step i r.val) (aggInner Bi inner mul).init)) ≠ [] := by
      simpa using hne
    obtain ⟨x, x1, x2⟩ := feed_isAgg Bo outer _ hne' hB
    exact ⟨_, x, by rw [h3, if_neg hne], x1, x2⟩

/-- C82 is false for NULL values: a user with the values 4 and NULL has the minimum 0 and the
average 2. -/
theorem C82_null_violated :
    ∃ rows : List (ARow Unit), rows.map ARow.val = [some 4, none] ∧
      (pEval ⟨100, -100⟩ .sum (aggInner ⟨100, -100⟩ .min 1) false none false [rows]).map
        (fun m => (m ()).bind AggFn.result) = some (some 0) ∧
      (pEval ⟨100, -100⟩ .sum (aggInner ⟨100, -100⟩ .avg 1) false none false [rows]).map
        (fun m => (m ()).bind AggFn.result) = some (some 2) :=
  ⟨[⟨some 1, none, some 4, ()⟩, ⟨some 1, none, none, ()⟩], by decide +kernel, by decide +kernel,
    by decide +kernel⟩

example : (pEval ⟨100, -100⟩ .avg (aggInner ⟨100, -100⟩ .max 1) false none false exUsers).map
    (fun m => (m true).bind AggFn.result) = some (some 5) := by decide +kernel

end
end OptiPrism.Query
