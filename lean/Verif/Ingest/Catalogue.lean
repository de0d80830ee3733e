import Verif.Ingest.Scenario

/-!
# Model: the products of the demo store (events-gen/src/store/products.rs)

Prices are integers; a price of the file is ten times a unit, so that nine tenths of it are exact. What is drawn is a parameter, and so is the order products
are shuffled into. The weights of `calc_cubic_spline` are left out, but not its assertion.
-/

namespace OptiPrism.Ingest

/-- A row of the file, store/products.rs 16-24; the price is in units. -/
structure ShopRow where
  name : Nat
  category : Nat
  units : Int
deriving DecidableEq, Repr

/-- A product of a row, store/products.rs 69-89: `d` is whether a discount is drawn. -/
def productOf (r : ShopRow) (d : Bool) : ShopProduct := ⟨r.name, r.category, 10 * r.units, if d then some (9 * r.units) else none⟩

/-- `ProductProvider`, store/products.rs 51-62. -/
structure Catalogue where
  products : List ShopProduct
  promoted : List ShopProduct
  deals : List ShopProduct

/-- The different ones of a list. -/
def differentOf : List Nat → List Nat
  | [] => []
  | x :: l => if x ∈ l then differentOf l else x :: differentOf l

/-- `calc_cubic_spline`, probability.rs 7-8: `false` is the assertion that fails. -/
def splineOk (total keys : Nat) : Bool := keys ≤ total

/-- `try_new_from_csv`, store/products.rs 65-136. `none` is a panic: an assertion of `calc_cubic_spline` (95, 117) or a slice that is too long (98). -/
def catalogueOf (shuffle : List ShopProduct → List ShopProduct) (rows : List (ShopRow × Bool)) : Option Catalogue :=
  let products := shuffle (rows.map fun r => productOf r.1 r.2)
  if !splineOk products.length 4 then none
  else if products.length < 5 then none
  else if !splineOk (differentOf (products.map (·.category))).length 4 then none
  else some ⟨products, products.take 5, products.filter fun p => p.discount.isSome⟩

/-- `deal_product_sample`, store/products.rs 106, 138-140: `n` is drawn among five. `none` is a panic. -/
def Catalogue.deal (c : Catalogue) (n : Nat) : Option ShopProduct := c.deals[n % 5]?

/-- `product_sample`, store/products.rs 96, 142-144: `n` is drawn among four. -/
def Catalogue.wanted (c : Catalogue) (n : Nat) : Option ShopProduct := c.products[n % 4]?

/-- `promoted_product_sample`, store/products.rs 99, 145-147: `n` is drawn among five. -/
def Catalogue.promotion (c : Catalogue) (n : Nat) : Option ShopProduct := c.promoted[n % 5]?

/-- The user has in mind and in the cart only products of `P`. -/
structure OwnState (P : List ShopProduct) (s : ShopState) : Prop where
  selected : ∀ p, s.selected = some p → p ∈ P
  cart : ∀ p ∈ s.cart, p ∈ P

/-- The event is about products of `P` only. -/
structure OwnTrack (P : List ShopProduct) (e : ShopTrack) : Prop where
  product : ∀ p, e.product = some p → p ∈ P
  cart : ∀ p ∈ e.cart, p ∈ P

theorem write_own {P : List ShopProduct} {s : ShopState} {e : ShopEvent} {x : ShopTrack} (h : OwnState P s) (hw : writeShop s e = some x) : OwnTrack P x := by
  simp only [writeShop] at hw
  split at hw
  · cases hw
  · split at hw
    · cases hw
    · cases hw
      exact ⟨h.selected, h.cart⟩

theorem searched_mem {s : ShopState} : ∀ {P : List ShopProduct} {hs : List Bool} {p : ShopProduct}, searched s P hs = some p → p ∈ P
  | [], _, _, h => by cases h
  | q :: P, hs, p, h => by
    simp only [searched] at h
    split at h
    · exact List.mem_cons_of_mem _ (searched_mem h)
    · split at h
      · cases h; exact List.mem_cons_self
      · exact List.mem_cons_of_mem _ (searched_mem h)

theorem book_own {P : List ShopProduct} {s : ShopState} (h : OwnState P s) : OwnState P (bookOrder s) := by
  have key : ∀ (l : List ShopProduct) (t : ShopState), (l.foldl (fun s p => { s with bought := countUp p s.bought, spent := s.spent + p.final }) t).selected = t.selected ∧
      (l.foldl (fun s p => { s with bought := countUp p s.bought, spent := s.spent + p.final }) t).cart = t.cart := by
    intro l
    induction l with
    | nil => intro t; exact ⟨rfl, rfl⟩
    | cons p l ih => intro t; exact ih _
  have hk := key s.cart s
  exact ⟨by simp only [bookOrder, hk.1]; exact h.selected, by simp only [bookOrder, hk.2]; exact h.cart⟩

theorem register_own {P : List ShopProduct} {s : ShopState} {r : List ShopTrack × ShopState} (h : OwnState P s) (hr : registerShop s = some r) :
    (∀ e ∈ r.1, OwnTrack P e) ∧ OwnState P r.2 := by
  simp only [registerShop] at hr
  split at hr
  · cases hr; exact ⟨by simp, h⟩
  · have h' : OwnState P { s with registered := true, loggedIn := true } := ⟨h.selected, h.cart⟩
    split at hr
    · rename_i a b ha hb
      cases hr
      refine ⟨?_, h'⟩
      intro e he
      simp only [List.mem_cons, List.not_mem_nil, or_false] at he
      rcases he with rfl | rfl
      · exact write_own h' ha
      · exact write_own h' hb
    · cases hr

theorem login_own {P : List ShopProduct} {s : ShopState} {r : List ShopTrack × ShopState} (h : OwnState P s) (hr : loginShop s = some r) :
    (∀ e ∈ r.1, OwnTrack P e) ∧ OwnState P r.2 := by
  simp only [loginShop] at hr
  split at hr
  · cases hr; exact ⟨by simp, h⟩
  · split at hr
    · rename_i a ha
      cases hr
      refine ⟨?_, h.selected, h.cart⟩
      intro e he
      simp only [List.mem_cons, List.not_mem_nil, or_false] at he
      subst he
      exact write_own h ha
    · cases hr

/-- How an arm ends keeps to the products. -/
def OwnArm (P : List ShopProduct) : ShopArm → Prop
  | .panic | .leave => True
  | .again evs l => (∀ e ∈ evs, OwnTrack P e) ∧ OwnState P l.st
  | .on evs l => (∀ e ∈ evs, OwnTrack P e) ∧ OwnState P l.st

theorem arm_own {P : List ShopProduct} {i : Intention} {t : ShopTurn} {l : ShopLoop} (hp : t.promoted ∈ P) (hd : t.deal ∈ P)
    (hi : ∀ p, i = .buyCertain p → p ∈ P) (h : OwnState P l.st) : OwnArm P (shopArm P i t l) := by
  have none_ : ∀ e ∈ ([] : List ShopTrack), OwnTrack P e := by simp
  have sel : ∀ (p : ShopProduct) (v : List (ShopProduct × Nat)), p ∈ P → OwnState P { l.st with selected := some p, viewed := v } :=
    fun p v hm => ⟨fun q hq => by cases hq; exact hm, h.cart⟩
  simp only [shopArm]
  split
  · split
    · trivial
    · split
      · trivial
      · exact ⟨none_, h⟩
  · split
    · split
      · exact ⟨none_, sel _ l.st.viewed (hi _ rfl)⟩
      · split
        · exact ⟨none_, h⟩
        · refine ⟨none_, ?_, h.cart⟩
          intro p hq
          simp only [] at hq
          cases hs : searched l.st P t.hits with
          | some q =>
            rw [hs] at hq
            cases hq
            exact searched_mem hs
          | none =>
            rw [hs] at hq
            exact h.selected p hq
    · split
      · exact ⟨none_, h⟩
      · exact ⟨none_, sel _ l.st.viewed hp⟩
    · split
      · exact ⟨none_, h⟩
      · exact ⟨none_, sel _ _ hd⟩
    · exact ⟨none_, h⟩
  · split
    · trivial
    · rename_i p hsel
      refine ⟨none_, h.selected, ?_⟩
      intro q hq
      simp only [List.mem_append, List.mem_cons, List.not_mem_nil, or_false] at hq
      rcases hq with hq | rfl
      · exact h.cart q hq
      · exact h.selected _ hsel
  · split
    · exact ⟨none_, h⟩
    · split
      · rename_i evs s a hl _
        exact login_own h hl
      · trivial
  · split
    · rename_i evs s a hl _
      exact register_own h hl
    · trivial
  · exact ⟨none_, book_own h⟩
  · split
    · trivial
    · split
      · exact ⟨none_, h⟩
      · rename_i q hq
        exact ⟨none_, sel _ _ (List.mem_of_find?_eq_some hq)⟩
  · split
    · exact ⟨none_, h.selected, h.cart⟩
    · exact ⟨none_, h⟩
  · trivial
  · trivial
  · exact ⟨none_, h⟩

/-- How a turn ends keeps to the products. -/
def OwnOut (P : List ShopProduct) : ShopOut → Prop
  | .panic => True
  | .user evs => ∀ e ∈ evs, OwnTrack P e
  | .turn evs l => (∀ e ∈ evs, OwnTrack P e) ∧ OwnState P l.st
  | .session evs s => (∀ e ∈ evs, OwnTrack P e) ∧ OwnState P s

theorem rest_own {P : List ShopProduct} {to : Int} {t : ShopTurn} {evs : List ShopTrack} {l : ShopLoop} (he : ∀ e ∈ evs, OwnTrack P e)
    (h : OwnState P l.st) : OwnOut P (shopRest to t evs l) := by
  simp only [shopRest]
  split
  · rename_i a w ev _ hev
    have h1 : ∀ e ∈ evs ++ ev, OwnTrack P e := by
      intro e hm
      rcases List.mem_append.1 hm with hm | hm
      · exact he e hm
      · simp only [writtenOf] at hev
        split at hev
        · cases hev; cases hm
        · rw [Option.map_eq_some_iff] at hev
          obtain ⟨x, hx, rfl⟩ := hev
          simp only [List.mem_cons, List.not_mem_nil, or_false] at hm
          subst hm
          exact write_own h hx
    by_cases hc : l.action = .completeOrder
    · simp only [if_pos hc]
      split
      · exact h1
      · exact ⟨h1, h.selected, by simp⟩
    · simp only [if_neg hc]
      split
      · exact h1
      · exact ⟨h1, h.selected, h.cart⟩
  · trivial

/-- How the loop over events ends keeps to the products. -/
def OwnEnd (P : List ShopProduct) : ShopEnd → Prop
  | .panic => True
  | .open_ evs | .user evs => ∀ e ∈ evs, OwnTrack P e
  | .session evs s => (∀ e ∈ evs, OwnTrack P e) ∧ OwnState P s

theorem events_own {P : List ShopProduct} {to : Int} {i : Intention} (hi : ∀ p, i = .buyCertain p → p ∈ P) :
    ∀ (ts : List ShopTurn) (l : ShopLoop), (∀ t ∈ ts, t.promoted ∈ P ∧ t.deal ∈ P) → OwnState P l.st → OwnEnd P (shopEvents P to i ts l) := by
  intro ts
  induction ts with
  | nil => intro l _ _; exact fun e he => by cases he
  | cons t ts ih =>
    intro l ht h
    have hturn : OwnOut P (shopTurn P to i t l) := by
      have ha := arm_own (i := i) (t := t) (ht t List.mem_cons_self).1 (ht t List.mem_cons_self).2 hi h
      simp only [shopTurn]
      revert ha
      cases shopArm P i t l with
      | panic => intro _; trivial
      | again evs l' => intro ha; exact ha
      | leave => intro _; exact ⟨by simp, h⟩
      | on evs l' => intro ha; exact rest_own ha.1 ha.2
    simp only [shopEvents]
    revert hturn
    cases shopTurn P to i t l with
    | panic => intro _; trivial
    | user evs => intro hturn; exact hturn
    | session evs s => intro hturn; exact hturn
    | turn evs l' =>
      intro hturn
      have hr := ih l' (fun t hm => ht t (List.mem_cons_of_mem _ hm)) hturn.2
      simp only []
      revert hr
      have both : ∀ more : List ShopTrack, (∀ e ∈ more, OwnTrack P e) → ∀ e ∈ evs ++ more, OwnTrack P e :=
        fun more hm e he => (List.mem_append.1 he).elim (hturn.1 e) (hm e)
      cases shopEvents P to i ts l' with
      | panic => intro _; trivial
      | open_ more => intro hr; exact both more hr
      | user more => intro hr; exact both more hr
      | session more s => intro hr; exact ⟨both more hr.1, hr.2⟩

/-- What is drawn for a visit are products of `P`. -/
def OwnVisit (P : List ShopProduct) (v : ShopVisit) : Prop :=
  (∀ p, v.wants = .buyCertain p → p ∈ P) ∧ ∀ t ∈ v.turns, t.promoted ∈ P ∧ t.deal ∈ P

theorem select_own {P : List ShopProduct} {s : ShopState} {v : ShopVisit} {i : Intention} (hv : OwnVisit P v) (h : selectIntention P s v = some i) :
    ∀ p, i = .buyCertain p → p ∈ P := by
  intro p hp
  subst hp
  simp only [selectIntention] at h
  refine hv.1 p ?_
  cases hw : v.wants with
  | makeRefund q =>
    rw [hw] at h
    split at h
    · split at h <;> simp at h
    · simp at h
  | buyCertain q =>
    rw [hw] at h
    split at h
    · split at h <;> simp at h
      rw [h]
    · simpa using h
  | buyAny =>
    rw [hw] at h
    split at h
    · split at h <;> simp at h
    · simp at h
  | justBrowse =>
    rw [hw] at h
    split at h
    · split at h <;> simp at h
    · simp at h

theorem user_own {P : List ShopProduct} {to : Int} : ∀ (vs : List ShopVisit) (s : ShopState), (∀ v ∈ vs, OwnVisit P v) → OwnState P s →
    ∀ e ∈ (shopUser P to vs s).1, OwnTrack P e := by
  intro vs
  induction vs with
  | nil => intro s _ _ e he; cases he
  | cons v vs ih =>
    intro s hv h
    simp only [shopUser]
    split
    · intro e he; cases he
    · rename_i i hi
      split
      · intro e he; cases he
      · have hown : OwnState P (ShopLoop.mk (if s.sessionId > 0 then { { s with selected := none } with cur := s.cur + waited (pauseOf i) v.pause }
            else { s with selected := none }) (shopWeights i) none .viewIndex).st := by
          simp only []
          split <;> exact ⟨by simp, h.cart⟩
        have he := events_own (to := to) (select_own (hv v List.mem_cons_self) hi) v.turns (ShopLoop.mk (if s.sessionId > 0 then { { s with selected := none } with cur := s.cur + waited (pauseOf i) v.pause }
            else { s with selected := none }) (shopWeights i) none .viewIndex) (hv v List.mem_cons_self).2 hown
        revert he
        cases shopEvents P to i v.turns _ with
        | panic => intro _ e hm; cases hm
        | open_ es => intro he; exact he
        | user es => intro he; exact he
        | session es s' =>
          intro he
          simp only []
          split
          · exact he.1
          · rename_i x hx
            intro e hm
            simp only [List.mem_append, List.mem_cons] at hm
            rcases hm with hm | rfl | hm
            · exact he.1 e hm
            · exact write_own he.2 hx
            · exact ih { s' with sessionId := s'.sessionId + 1 } (fun v hm => hv v (List.mem_cons_of_mem _ hm)) ⟨he.2.selected, he.2.cart⟩ e hm

end OptiPrism.Ingest
