import Verif.Ingest.Scenario

/-!
# Counting what is said to be added to the cart, for C161
-/

namespace OptiPrism.Ingest

/-- How many products were said to be added since the last order, `k` having been before. -/
def addedSince (k : Nat) : List ShopTrack → Nat
  | [] => k
  | e :: l => addedSince (if e.event = .orderCompleted then 0 else if e.event = .productAddedToCart then k + 1 else k) l

/-- No cart has more than was said to be added. -/
def Stocked : Nat → List ShopTrack → Prop
  | _, [] => True
  | k, e :: l => e.cart.length ≤ k + (if e.event = .productAddedToCart then 1 else 0) ∧
      Stocked (if e.event = .orderCompleted then 0 else if e.event = .productAddedToCart then k + 1 else k) l

theorem addedSince_append : ∀ (a b : List ShopTrack) (k : Nat), addedSince k (a ++ b) = addedSince (addedSince k a) b
  | [], _, _ => rfl
  | _ :: a, b, _ => addedSince_append a b _

theorem Stocked.append : ∀ {a b : List ShopTrack} {k : Nat}, Stocked k a → Stocked (addedSince k a) b → Stocked k (a ++ b)
  | [], _, _, _, h => h
  | _ :: _, _, _, h, h' => ⟨h.1, Stocked.append h.2 h'⟩

theorem Stocked.at_event : ∀ {pre : List ShopTrack} {k : Nat} {e : ShopTrack} {post : List ShopTrack}, Stocked k (pre ++ e :: post) →
    e.cart.length ≤ addedSince k pre + (if e.event = .productAddedToCart then 1 else 0)
  | [], _, _, _, h => h.1
  | _ :: pre, _, _, _, h => Stocked.at_event (pre := pre) h.2

theorem write_fields {s : ShopState} {e : ShopEvent} {x : ShopTrack} (h : writeShop s e = some x) : x.event = e ∧ x.cart = s.cart := by
  simp only [writeShop] at h
  split at h
  · cases h
  · split at h
    · cases h
    · cases h; exact ⟨rfl, rfl⟩

/-- Events that leave the count alone, with the cart `c`. -/
def CartQuiet (c : List ShopProduct) (evs : List ShopTrack) : Prop :=
  ∀ e ∈ evs, e.event ≠ .orderCompleted ∧ e.event ≠ .productAddedToCart ∧ e.cart = c

theorem CartQuiet.stocked {c : List ShopProduct} : ∀ {evs : List ShopTrack} {k : Nat}, CartQuiet c evs → c.length ≤ k → Stocked k evs ∧ addedSince k evs = k
  | [], _, _, _ => ⟨trivial, rfl⟩
  | e :: l, k, h, hk => by
    have he := h e List.mem_cons_self
    have hl := CartQuiet.stocked (evs := l) (k := k) (fun x hx => h x (List.mem_cons_of_mem _ hx)) hk
    simp only [Stocked, addedSince, if_neg he.1, if_neg he.2.1]
    exact ⟨⟨by rw [he.2.2]; omega, hl.1⟩, hl.2⟩

theorem register_quiet {s : ShopState} {r : List ShopTrack × ShopState} (hr : registerShop s = some r) : CartQuiet s.cart r.1 ∧ r.2.cart = s.cart := by
  simp only [registerShop] at hr
  split at hr
  · cases hr; exact ⟨fun e he => (by cases he), rfl⟩
  · split at hr
    · rename_i a b ha hb
      cases hr
      have h1 := write_fields ha
      have h2 := write_fields hb
      refine ⟨?_, rfl⟩
      intro e he
      simp only [List.mem_cons, List.not_mem_nil, or_false] at he
      rcases he with rfl | rfl
      · exact ⟨by rw [h1.1]; simp, by rw [h1.1]; simp, h1.2⟩
      · exact ⟨by rw [h2.1]; simp, by rw [h2.1]; simp, h2.2⟩
    · cases hr

theorem login_quiet {s : ShopState} {r : List ShopTrack × ShopState} (hr : loginShop s = some r) : CartQuiet s.cart r.1 ∧ r.2.cart = s.cart := by
  simp only [loginShop] at hr
  split at hr
  · cases hr; exact ⟨fun e he => (by cases he), rfl⟩
  · split at hr
    · rename_i a ha
      cases hr
      have h1 := write_fields ha
      refine ⟨?_, rfl⟩
      intro e he
      simp only [List.mem_cons, List.not_mem_nil, or_false] at he
      subst he
      exact ⟨by rw [h1.1]; simp, by rw [h1.1]; simp, h1.2⟩
    · cases hr

theorem book_cart (s : ShopState) : (bookOrder s).cart = s.cart := by
  have key : ∀ (l : List ShopProduct) (t : ShopState),
      (l.foldl (fun s p => { s with bought := countUp p s.bought, spent := s.spent + p.final }) t).cart = t.cart := by
    intro l
    induction l with
    | nil => intro t; rfl
    | cons p l ih => intro t; exact ih _
  exact key s.cart s

/-- How an arm ends: the cart is as before, unless a product is being added. -/
def CartArm (c : List ShopProduct) : ShopArm → Prop
  | .panic | .leave => True
  | .again evs l => CartQuiet c evs ∧ l.st.cart = c
  | .on evs l => CartQuiet c evs ∧ l.st.cart.length ≤ c.length + if l.action = .addProductToCart then 1 else 0

theorem arm_cart (products : List ShopProduct) (i : Intention) (t : ShopTurn) (l : ShopLoop) : CartArm l.st.cart (shopArm products i t l) := by
  have q : CartQuiet l.st.cart [] := fun e he => by cases he
  have le : ∀ n : Nat, l.st.cart.length ≤ l.st.cart.length + n := fun n => Nat.le_add_right _ _
  simp only [shopArm]
  split
  · split
    · trivial
    · split
      · trivial
      · exact ⟨q, le _⟩
  · split
    · split
      · exact ⟨q, le _⟩
      · split
        · exact ⟨q, rfl⟩
        · exact ⟨q, le _⟩
    · split
      · exact ⟨q, rfl⟩
      · exact ⟨q, le _⟩
    · split
      · exact ⟨q, rfl⟩
      · exact ⟨q, le _⟩
    · exact ⟨q, le _⟩
  · split
    · trivial
    · rename_i ha _ p hsel
      exact ⟨q, by simp [ha]⟩
  · split
    · exact ⟨q, rfl⟩
    · split
      · rename_i evs s a hl _
        exact login_quiet hl
      · trivial
  · split
    · rename_i evs s a hl _
      have := register_quiet hl
      refine ⟨this.1, ?_⟩
      simp only [] at this
      simp only [this.2]
      exact le _
    · trivial
  · refine ⟨q, ?_⟩
    simp only [book_cart]
    exact le _
  · split
    · trivial
    · split
      · exact ⟨q, rfl⟩
      · exact ⟨q, le _⟩
  · split
    · exact ⟨q, le _⟩
    · exact ⟨q, le _⟩
  · trivial
  · trivial
  · exact ⟨q, le _⟩

/-- How a turn ends, `k` having been counted. -/
def CartOut (k : Nat) : ShopOut → Prop
  | .panic => True
  | .user evs => Stocked k evs
  | .turn evs l => Stocked k evs ∧ l.st.cart.length ≤ addedSince k evs
  | .session evs s => Stocked k evs ∧ s.cart.length ≤ addedSince k evs

theorem rest_cart {k : Nat} {to : Int} {t : ShopTurn} {evs : List ShopTrack} {l : ShopLoop} (he : Stocked k evs) (hk : addedSince k evs = k)
    (h : l.st.cart.length ≤ k + if l.action = .addProductToCart then 1 else 0) : CartOut k (shopRest to t evs l) := by
  simp only [shopRest]
  split
  · rename_i a w ev _ hev
    have h1 : Stocked k (evs ++ ev) ∧ (if l.action = .completeOrder then 0 else l.st.cart.length) ≤ addedSince k (evs ++ ev) := by
      rw [addedSince_append, hk]
      cases hae : l.action.event with
      | none =>
        simp only [writtenOf, hae] at hev
        cases hev
        have hna : l.action ≠ .addProductToCart := by intro hc; rw [hc] at hae; cases hae
        have hnc : l.action ≠ .completeOrder := by intro hc; rw [hc] at hae; cases hae
        rw [if_neg hna] at h
        rw [if_neg hnc]
        exact ⟨by simpa using he, h⟩
      | some x =>
        simp only [writtenOf, hae, Option.map_eq_some_iff] at hev
        obtain ⟨y, hy, rfl⟩ := hev
        have hf := write_fields hy
        have key : y.cart.length ≤ k + (if y.event = .productAddedToCart then 1 else 0) ∧
            (if l.action = .completeOrder then 0 else l.st.cart.length) ≤
              (if y.event = .orderCompleted then 0 else if y.event = .productAddedToCart then k + 1 else k) := by
          rw [hf.1, hf.2]
          cases ha : l.action <;> rw [ha] at hae h <;> simp only [ShopAction.event, Option.some.injEq, reduceCtorEq] at hae <;> subst hae <;>
            simp at h ⊢ <;> exact h
        exact ⟨he.append (by rw [hk]; exact ⟨key.1, trivial⟩), key.2⟩
    by_cases hc : l.action = .completeOrder
    · simp only [if_pos hc]
      split
      · exact h1.1
      · exact ⟨h1.1, Nat.zero_le _⟩
    · rw [if_neg hc] at h1
      simp only [if_neg hc]
      split
      · exact h1.1
      · exact h1
  · trivial

/-- How the loop over events ends. -/
def CartEnd (k : Nat) : ShopEnd → Prop
  | .panic => True
  | .open_ evs | .user evs => Stocked k evs
  | .session evs s => Stocked k evs ∧ s.cart.length ≤ addedSince k evs

theorem events_cart (products : List ShopProduct) (to : Int) (i : Intention) : ∀ (ts : List ShopTurn) (k : Nat) (l : ShopLoop), l.st.cart.length ≤ k →
    CartEnd k (shopEvents products to i ts l) := by
  intro ts
  induction ts with
  | nil => intro k l _; trivial
  | cons t ts ih =>
    intro k l h
    have hturn : CartOut k (shopTurn products to i t l) := by
      have ha := arm_cart products i t l
      simp only [shopTurn]
      revert ha
      cases shopArm products i t l with
      | panic => intro _; trivial
      | again evs l' =>
        intro ha
        have hq := ha.1.stocked h
        exact ⟨hq.1, by rw [hq.2, ha.2]; exact h⟩
      | leave => intro _; exact ⟨trivial, h⟩
      | on evs l' =>
        intro ha
        have hq := ha.1.stocked h
        exact rest_cart hq.1 hq.2 (by have := ha.2; omega)
    simp only [shopEvents]
    revert hturn
    cases shopTurn products to i t l with
    | panic => intro _; trivial
    | user evs => intro hturn; exact hturn
    | session evs s => intro hturn; exact hturn
    | turn evs l' =>
      intro hturn
      have hr := ih _ l' hturn.2
      simp only []
      revert hr
      cases shopEvents products to i ts l' with
      | panic => intro _; trivial
      | open_ more => intro hr; exact hturn.1.append hr
      | user more => intro hr; exact hturn.1.append hr
      | session more s => intro hr; exact ⟨hturn.1.append hr.1, by rw [addedSince_append]; exact hr.2⟩

theorem user_cart (products : List ShopProduct) (to : Int) : ∀ (vs : List ShopVisit) (k : Nat) (s : ShopState), s.cart.length ≤ k →
    Stocked k (shopUser products to vs s).1 := by
  intro vs
  induction vs with
  | nil => intro k s _; trivial
  | cons v vs ih =>
    intro k s h
    simp only [shopUser]
    split
    · trivial
    · rename_i i hi
      split
      · trivial
      · have hc : (ShopLoop.mk (if s.sessionId > 0 then { { s with selected := none } with cur := s.cur + waited (pauseOf i) v.pause }
            else { s with selected := none }) (shopWeights i) none .viewIndex).st.cart.length ≤ k := by
          simp only []
          split <;> exact h
        have he := events_cart products to i v.turns k (ShopLoop.mk (if s.sessionId > 0 then { { s with selected := none } with cur := s.cur + waited (pauseOf i) v.pause }
            else { s with selected := none }) (shopWeights i) none .viewIndex) hc
        revert he
        cases shopEvents products to i v.turns _ with
        | panic => intro _; trivial
        | open_ es => intro he; exact he
        | user es => intro he; exact he
        | session es s' =>
          intro he
          simp only []
          split
          · exact he.1
          · rename_i x hx
            have hf := write_fields hx
            refine he.1.append ?_
            simp only [Stocked, hf.1, hf.2]
            exact ⟨by simpa using he.2, ih _ { s' with sessionId := s'.sessionId + 1 } he.2⟩

end OptiPrism.Ingest
