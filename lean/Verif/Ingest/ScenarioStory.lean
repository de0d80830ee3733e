import Verif.Ingest.Scenario

/-!
# What a possible story is, and that each turn of the loop goes on with it
-/

namespace OptiPrism.Ingest

/-- What is known from the events so far. -/
structure Seen where
  known : Bool
  spent : Int
  last : Option ShopEvent
  at_ : Int

def Seen.after (z : Seen) (e : ShopTrack) : Seen := ⟨e.known, e.spent, some e.event, e.at_⟩

/-- The event that must come right before, on the way to an order. -/
def ShopEvent.comesAfter : ShopEvent → Option ShopEvent
  | .customerInformationEntered => some .cartViewed
  | .shippingMethodEntered => some .customerInformationEntered
  | .paymentMethodEntered => some .shippingMethodEntered
  | .orderVerified => some .paymentMethodEntered
  | .orderCompleted => some .orderVerified
  | .userLoggedIn => some .userRegistered
  | _ => none

/-- No event of this session yet. -/
def Seen.fresh (z : Seen) : Prop := z.last = none ∨ z.last = some .sessionEnd

/-- The event `e` can come after what has been seen. -/
structure ShopFits (lim : Int) (z : Seen) (e : ShopTrack) : Prop where
  later : z.at_ ≤ e.at_
  until_ : e.at_ ≤ lim
  known : if e.event = .userRegistered then z.known = false ∧ e.known = true else e.known = z.known
  spent : e.spent = z.spent + e.revenue.getD 0
  revenue : e.revenue = if e.event = .orderCompleted then some ((e.cart.map fun p => p.discount.getD p.price).sum) else none
  cart : e.event = .orderCompleted ∨ e.event = .cartViewed → e.cart ≠ []
  product : e.event = .productViewed ∨ e.event = .productAddedToCart → e.product.isSome = true
  before : ∀ x, e.event.comesAfter = some x → z.last = some x
  first : z.fresh → e.event = .indexPageViewed
  refunds : e.event ≠ .productRefunded ∧ e.event ≠ .ordersViewed

/-- The events are a possible story after what has been seen. -/
def Story (lim : Int) : Seen → List ShopTrack → Prop
  | _, [] => True
  | z, e :: l => ShopFits lim z e ∧ Story lim (z.after e) l

def Seen.all (z : Seen) (l : List ShopTrack) : Seen := l.foldl Seen.after z

theorem Seen.all_append (z : Seen) (a b : List ShopTrack) : z.all (a ++ b) = (z.all a).all b := by simp [Seen.all]

theorem Story.append {lim : Int} : ∀ {a b : List ShopTrack} {z : Seen}, Story lim z a → Story lim (z.all a) b → Story lim z (a ++ b)
  | [], _, _, _, h => h
  | _ :: _, _, _, h, h' => ⟨h.1, Story.append h.2 h'⟩

/-- The weights every loop has. -/
structure Live (w : ShopWeights) : Prop where
  discover : w.discover = true
  index : w.goToIndex = true
  view : w.viewCart = true
  complete : w.cartCompletion = true
  refund : w.refund = false

/-- What holds of the user between the turns. -/
structure Same (lim : Int) (z : Seen) (s : ShopState) : Prop where
  known : z.known = s.registered
  logged : s.loggedIn = s.registered
  later : z.at_ ≤ s.cur
  until_ : s.cur ≤ lim
  bought : s.bought = []

/-- Actions users register from. -/
def ready (s : ShopState) : ShopAction → Prop
  | .viewIndex | .viewIndexPromotions | .viewDeals | .searchProduct => True
  | .viewProduct | .viewRelatedProduct => s.selected.isSome = true
  | .addProductToCart => s.selected.isSome = true ∧ s.cart ≠ []
  | .viewCart => s.cart ≠ []
  | _ => False

/-- What an action needs that is about to be taken. -/
def needs (z : Seen) (s : ShopState) (prev : Option ShopAction) : ShopAction → Prop
  | .viewProduct => s.selected.isSome = true ∨ prev = some .searchProduct ∨ prev = some .viewIndexPromotions ∨ prev = some .viewDeals
  | .viewRelatedProduct | .addProductToCart => s.selected.isSome = true
  | .viewCart => s.cart ≠ []
  | .enterCustomerInformation => s.cart ≠ [] ∧ z.last = some .cartViewed
  | .enterShippingMethod => s.cart ≠ [] ∧ z.last = some .customerInformationEntered
  | .enterPaymentMethod => s.cart ≠ [] ∧ z.last = some .shippingMethodEntered
  | .verifyOrder => s.cart ≠ [] ∧ z.last = some .paymentMethodEntered
  | .completeOrder => s.cart ≠ [] ∧ z.last = some .orderVerified
  | .register | .login => ∃ p, prev = some p ∧ ready s p
  | .refundProduct | .viewOrders | .logout | .goToPreviousPage => False
  | _ => True

/-- What an action has once it has been taken. -/
def has (z : Seen) (s : ShopState) : ShopAction → Prop
  | .viewIndex | .viewIndexPromotions | .viewDeals | .searchProduct | .notFound => True
  | .viewProduct | .viewRelatedProduct => s.selected.isSome = true
  | .addProductToCart => s.selected.isSome = true ∧ s.cart ≠ []
  | .viewCart => s.cart ≠ []
  | .enterCustomerInformation => s.cart ≠ [] ∧ z.last = some .cartViewed
  | .enterShippingMethod => s.cart ≠ [] ∧ z.last = some .customerInformationEntered
  | .enterPaymentMethod => s.cart ≠ [] ∧ z.last = some .shippingMethodEntered
  | .verifyOrder => s.cart ≠ [] ∧ z.last = some .paymentMethodEntered
  | .completeOrder => s.cart ≠ [] ∧ z.last = some .orderVerified
  | _ => False

/-- What holds at the head of the loop. -/
structure Head (lim m : Int) (z : Seen) (l : ShopLoop) : Prop where
  same : Same lim z l.st
  spent : z.spent = l.st.spent
  live : Live l.weights
  needs : needs z l.st l.prev l.action
  soon : l.action = .viewIndex ∨ l.st.cur ≤ m
  begun : l.action ≠ .viewIndex → ¬ z.fresh

/-- What holds behind the `match`. -/
structure ShopTaken (lim : Int) (z : Seen) (l : ShopLoop) : Prop where
  same : Same lim z l.st
  spent : l.st.spent = z.spent + if l.action = .completeOrder then cartAmount l.st.cart else 0
  live : Live l.weights
  has : has z l.st l.action
  begun : l.action ≠ .viewIndex → ¬ z.fresh

theorem ready_has {s : ShopState} {a : ShopAction} (z : Seen) (h : ready s a) : has z s a := by
  cases a <;> simp_all [ready, has]

theorem ready_not_complete {s : ShopState} {a : ShopAction} (h : ready s a) : a ≠ .completeOrder := by
  rintro rfl; exact h

theorem ready_needs {s : ShopState} {a : ShopAction} (z : Seen) (p : Option ShopAction) (h : ready s a) : needs z s p a := by
  cases a <;> simp_all [ready, needs]

theorem bookOrder_eq (s : ShopState) (h : s.bought = []) : bookOrder s = { s with spent := s.spent + cartAmount s.cart } := by
  have key : ∀ (l : List ShopProduct) (t : ShopState), t.bought = [] →
      l.foldl (fun s p => { s with bought := countUp p s.bought, spent := s.spent + p.final }) t = { t with spent := t.spent + cartAmount l } := by
    intro l
    induction l with
    | nil => intro t _; simp [cartAmount]
    | cons p l ih =>
      intro t ht
      rw [List.foldl_cons, ih _ (by simp [ht, countUp])]
      simp [cartAmount, ht, countUp, Int.add_assoc]
  exact key _ _ h

theorem arm_head (lim m : Int) (products : List ShopProduct) (i : Intention) (t : ShopTurn) (hi : ∀ p, i ≠ .makeRefund p) (z : Seen) (l : ShopLoop)
    (h : Head lim m z l) : match shopArm products i t l with
      | .panic => False
      | .again evs l' => evs = [] ∧ Head lim m z l'
      | .leave => l.action ≠ .viewIndex
      | .on evs l' => Story lim z evs ∧ ShopTaken lim (z.all evs) l' := by
  obtain ⟨s, w, prev, a⟩ := l
  obtain ⟨same, spent, live, need, soon, begun⟩ := h
  have hs : a ≠ .viewIndex → s.cur ≤ m := fun hn => soon.resolve_left hn
  simp only [] at same spent live need soon begun
  have plain : ∀ b, a = b → has z s b → b ≠ .completeOrder → Story lim z [] ∧ ShopTaken lim (z.all []) ⟨s, w, prev, b⟩ := by
    intro b hb hh hc
    exact ⟨trivial, same, by simp [Seen.all, hc, spent], live, hh, by rw [← hb]; exact begun⟩
  cases a with
  | viewIndex => exact plain _ rfl trivial (by simp)
  | viewIndexPromotions => exact plain _ rfl trivial (by simp)
  | viewDeals => exact plain _ rfl trivial (by simp)
  | searchProduct => exact plain _ rfl trivial (by simp)
  | notFound => exact plain _ rfl trivial (by simp)
  | viewCart => exact plain _ rfl need (by simp)
  | enterCustomerInformation => exact plain _ rfl need (by simp)
  | enterShippingMethod => exact plain _ rfl need (by simp)
  | enterPaymentMethod => exact plain _ rfl need (by simp)
  | verifyOrder => exact plain _ rfl need (by simp)
  | logout => exact need.elim
  | viewOrders => exact need.elim
  | refundProduct => exact need.elim
  | goToPreviousPage => exact need.elim
  | bounce => simp [shopArm]
  | abandonCart => simp [shopArm]
  | endSession =>
    have key : (match (if s.cart.isEmpty then ShopArm.leave else .on [] ⟨s, w, prev, .viewCart⟩ : ShopArm) with
      | .panic => False
      | .again evs l' => evs = [] ∧ Head lim m z l'
      | .leave => ShopAction.endSession ≠ .viewIndex
      | .on evs l' => Story lim z evs ∧ ShopTaken lim (z.all evs) l') := by
      by_cases hc : s.cart.isEmpty = true
      · rw [if_pos hc]; simp
      · rw [if_neg hc]
        exact ⟨trivial, same, by simp [Seen.all, spent], live, by simpa [has] using hc, fun _ => begun (by simp)⟩
    cases i with
    | makeRefund p => exact absurd rfl (hi p)
    | buyCertain p => exact key
    | buyAny => exact key
    | justBrowse => exact key
  | completeOrder =>
    show Story lim z [] ∧ _
    refine ⟨trivial, ?_⟩
    rw [bookOrder_eq s same.bought]
    exact ⟨⟨same.known, same.logged, same.later, same.until_, same.bought⟩, by simp [Seen.all, spent], live, need, begun⟩
  | addProductToCart =>
    simp only [needs] at need
    obtain ⟨p, hp⟩ := Option.isSome_iff_exists.1 need
    simp only [shopArm, hp]
    exact ⟨trivial, ⟨same.known, same.logged, same.later, same.until_, same.bought⟩, by simp [Seen.all, spent], live, by simp [has], begun⟩
  | viewRelatedProduct =>
    simp only [needs] at need
    obtain ⟨p, hp⟩ := Option.isSome_iff_exists.1 need
    simp only [shopArm, hp]
    cases products.find? (fun x => x.category = p.category && x.name ≠ p.name) with
    | none => exact ⟨rfl, same, spent, live, trivial, Or.inr (hs (by simp)), fun _ => begun (by simp)⟩
    | some q => exact ⟨trivial, ⟨same.known, same.logged, same.later, same.until_, same.bought⟩, by simp [Seen.all, spent], live, by simp [has], begun⟩
  | viewProduct =>
    have quit : ∀ q, Head lim m z ⟨s, w, q, .endSession⟩ := fun q => ⟨same, spent, live, trivial, Or.inr (hs (by simp)), fun _ => begun (by simp)⟩
    have go : ∀ q v, ShopTaken lim (z.all []) ⟨{ s with selected := some q, viewed := v }, w, prev, .viewProduct⟩ := fun q v =>
      ⟨⟨same.known, same.logged, same.later, same.until_, same.bought⟩, by simp [Seen.all, spent], live, by simp [has], begun⟩
    have other : (prev ≠ some .searchProduct ∧ prev ≠ some .viewIndexPromotions ∧ prev ≠ some .viewDeals) → Story lim z [] ∧ ShopTaken lim (z.all []) ⟨s, w, prev, .viewProduct⟩ := by
      intro hp
      refine plain _ rfl ?_ (by simp)
      rcases need with h | h | h | h
      · exact h
      · exact absurd h hp.1
      · exact absurd h hp.2.1
      · exact absurd h hp.2.2
    have srch : prev = some .searchProduct → (match (if ((searched s products t.hits).or s.selected).isNone then .again [] ⟨s, w, some .viewProduct, .endSession⟩
        else .on [] ⟨{ s with selected := (searched s products t.hits).or s.selected }, w, prev, .viewProduct⟩ : ShopArm) with
      | .panic => False
      | .again evs l' => evs = [] ∧ Head lim m z l'
      | .leave => ShopAction.viewProduct ≠ .viewIndex
      | .on evs l' => Story lim z evs ∧ ShopTaken lim (z.all evs) l') := by
      intro _
      cases hq : (searched s products t.hits).or s.selected with
      | none => exact ⟨rfl, quit _⟩
      | some q => rw [if_neg (by simp)]; exact ⟨trivial, go q s.viewed⟩
    cases prev with
    | none => exact other ⟨by simp, by simp, by simp⟩
    | some p =>
      cases p
      case searchProduct =>
        cases i with
        | makeRefund p => exact absurd rfl (hi p)
        | buyCertain p => exact ⟨trivial, go p s.viewed⟩
        | buyAny => exact srch rfl
        | justBrowse => exact srch rfl
      case viewIndexPromotions =>
        by_cases hv : s.saw t.promoted = true
        · simp only [shopArm]; rw [if_pos hv]; exact ⟨rfl, quit _⟩
        · simp only [shopArm]; rw [if_neg hv]; exact ⟨trivial, go _ s.viewed⟩
      case viewDeals =>
        by_cases hv : s.saw t.deal = true
        · simp only [shopArm]; rw [if_pos hv]; exact ⟨rfl, quit _⟩
        · simp only [shopArm]; rw [if_neg hv]; exact ⟨trivial, go _ _⟩
      all_goals exact other ⟨by simp, by simp, by simp⟩
  | login =>
    obtain ⟨p, hp, hr⟩ := need
    subst hp
    simp only [shopArm]
    cases hreg : s.registered with
    | false => 
      exact ⟨rfl, same, spent, live, ⟨p, rfl, hr⟩, Or.inr (hs (by simp)), fun _ => begun (by simp)⟩
    | true =>
      have hl : s.loggedIn = true := by rw [same.logged, hreg]
      simp only [loginShop, hl, Bool.not_true]
      exact ⟨rfl, same, spent, ⟨live.discover, live.index, live.view, live.complete, live.refund⟩, ready_needs _ _ hr, Or.inr (hs (by simp)), fun _ => begun (by simp)⟩
  | register =>
    obtain ⟨p, hp, hr⟩ := need
    subst hp
    have lv : Live { w with register := false, login := false } := ⟨live.discover, live.index, live.view, live.complete, live.refund⟩
    simp only [shopArm, registerShop]
    cases hreg : s.registered with
    | true =>
      exact ⟨trivial, same, by simp [Seen.all, spent, ready_not_complete hr], lv, ready_has _ hr, fun _ => begun (by simp)⟩
    | false =>
      have nf : ¬ z.fresh := begun (by simp)
      simp [writeShop, ShopEvent.aboutProduct]
      refine ⟨⟨⟨same.later, same.until_, ?_, ?_, ?_, ?_, ?_, ?_, ?_, ?_⟩, ⟨⟨?_, same.until_, ?_, ?_, ?_, ?_, ?_, ?_, ?_, ?_⟩, trivial⟩⟩, ?_⟩
      all_goals first
        | (simp [same.known, hreg, spent, ShopEvent.comesAfter, Seen.after, Seen.fresh, nf]; done)
        | skip
      · exact fun hf => absurd hf nf
      · refine ⟨⟨?_, ?_, ?_, same.until_, same.bought⟩, ?_, lv, ?_, ?_⟩
        · simp [Seen.all, Seen.after]
        · rfl
        · simp [Seen.all, Seen.after]
        · simp [Seen.all, Seen.after, ready_not_complete hr]
        · exact ready_has _ (by cases p <;> simp_all [ready])
        · intro _; simp [Seen.all, Seen.after, Seen.fresh]

theorem next_some {c : ShopWeights} {a : ShopAction} {n : Nat} (h : ∃ x ∈ shopRow c a, x.2.1 = true) : ∃ b w, nextShop c a n = some (b, w) := by
  obtain ⟨x, hx, ht⟩ := h
  have hm : x ∈ (shopRow c a).filter fun x => x.2.1 := List.mem_filter.2 ⟨hx, ht⟩
  have hl : 0 < ((shopRow c a).filter fun x => x.2.1).length := List.length_pos_of_mem hm
  have := Nat.mod_lt n hl
  simp only [nextShop]
  rw [List.getElem?_eq_getElem this]
  exact ⟨_, _, rfl⟩

theorem next_mem {c : ShopWeights} {a : ShopAction} {n : Nat} {b : ShopAction} {w : Nat} (h : nextShop c a n = some (b, w)) : (b, true, w) ∈ shopRow c a := by
  simp only [nextShop, Option.map_eq_some_iff] at h
  obtain ⟨x, hx, hb⟩ := h
  have hm := List.mem_filter.1 (List.mem_of_getElem? hx)
  obtain ⟨x1, x2, x3⟩ := x
  simp only [Prod.mk.injEq] at hb
  have h2 : x2 = true := hm.2
  rw [← hb.1, ← hb.2, ← h2]
  exact hm.1

/-- There is always something to do next. -/
theorem next_taken {lim : Int} {z : Seen} {l : ShopLoop} (n : Nat) (h : ShopTaken lim z l) : ∃ b w, nextShop l.weights l.action n = some (b, w) := by
  obtain ⟨s, c, p, a⟩ := l
  obtain ⟨-, -, live, has, -⟩ := h
  refine next_some ?_
  have h1 : c.discover = true := live.discover
  have h2 : c.goToIndex = true := live.index
  have h3 : c.viewCart = true := live.view
  have h4 : c.cartCompletion = true := live.complete
  cases a <;> simp_all [shopRow, OptiPrism.Ingest.has]

/-- What comes next has what it needs. -/
theorem next_needs {lim : Int} {z : Seen} {l : ShopLoop} {n : Nat} {b : ShopAction} {w : Nat} (h : ShopTaken lim z l)
    (hn : nextShop l.weights l.action n = some (b, w)) (z' : Seen) (s' : ShopState) (hsel : s'.selected = l.st.selected)
    (hcart : l.action ≠ .completeOrder → s'.cart = l.st.cart) (hz : ∀ e, l.action.event = some e → z'.last = some e) :
    needs z' s' (some l.action) b := by
  obtain ⟨s, c, p, a⟩ := l
  obtain ⟨-, -, live, has, -⟩ := h
  have hm := next_mem hn
  have h5 : c.refund = false := live.refund
  simp only [] at hsel hcart hz has hm
  cases a <;> simp only [OptiPrism.Ingest.has] at has <;>
    simp only [shopRow, List.mem_cons, Prod.mk.injEq, List.not_mem_nil, or_false, h5] at hm <;>
    (first | exact has.elim | skip) <;>
    simp only [ShopAction.event, ne_eq, reduceCtorEq, not_false_eq_true, true_implies, not_true, false_implies, Option.some.injEq, forall_eq'] at hcart hz <;>
    (rcases hm with hm | hm | hm | hm | hm | hm | hm | hm <;> (try (obtain ⟨rfl, hm⟩ := hm)) <;> simp_all [needs, ready])

theorem waited_nonneg (w n : Nat) : 0 ≤ waited w n := Int.natCast_nonneg _

theorem cartAmount_eq (l : List ShopProduct) : cartAmount l = (l.map fun p => p.discount.getD p.price).sum := rfl

theorem writeShop_eq (s : ShopState) (e : ShopEvent) (h1 : e.aboutProduct = true → s.selected.isSome = true) (h2 : e = .orderCompleted → s.cart ≠ []) :
    writeShop s e = some ⟨e, s.cur, s.registered, s.spent, s.cart, if e = .orderCompleted then some (cartAmount s.cart) else none, s.selected⟩ := by
  simp only [writeShop]
  rw [if_neg, if_neg]
  · simp only [Bool.and_eq_true, decide_eq_true_eq, List.isEmpty_iff]
    exact fun h => h2 h.1 h.2
  · simp only [Bool.and_eq_true, Option.isNone_iff_eq_none]
    intro h
    have := h1 h.1
    rw [h.2] at this
    cases this

/-- The event of an action taken can be written, and fits. -/
theorem write_taken {lim : Int} {z : Seen} {l : ShopLoop} (h : ShopTaken lim z l) {e : ShopEvent} (he : l.action.event = some e) :
    ∃ x, writeShop l.st e = some x ∧ ShopFits lim z x ∧ z.after x = ⟨l.st.registered, l.st.spent, some e, l.st.cur⟩ := by
  obtain ⟨s, c, p, a⟩ := l
  obtain ⟨same, spent, live, has, begun⟩ := h
  simp only [] at same spent has begun he
  have nf : a ≠ .viewIndex → ¬ z.fresh := begun
  have hk := same.known
  cases a <;> simp only [ShopAction.event, Option.some.injEq, reduceCtorEq] at he <;> subst he <;> simp only [OptiPrism.Ingest.has] at has <;>
    (first | exact has.elim | skip) <;>
    (refine ⟨_, writeShop_eq _ _ (by simp_all [ShopEvent.aboutProduct]) (by simp_all), ⟨same.later, same.until_, ?_, ?_, ?_, ?_, ?_, ?_, ?_, ?_⟩, rfl⟩) <;>
    simp_all [ShopEvent.comesAfter, cartAmount_eq]

theorem rest_taken (lim m to : Int) (hto : to ≤ m) (hm : m ≤ lim) (t : ShopTurn) (evs : List ShopTrack) (z : Seen) (l : ShopLoop) (h : ShopTaken lim z l) :
    match shopRest to t evs l with
      | .panic => False
      | .turn es l' => ∃ more, es = evs ++ more ∧ Story lim z more ∧ Head lim m (z.all more) l'
      | .session _ _ => False
      | .user es => ∃ more, es = evs ++ more ∧ Story lim z more := by
  obtain ⟨b, w, hb⟩ := next_taken t.pick h
  have hlive : Live (if l.st.eventId = 0 then { l.weights with bounceRate := false } else l.weights) := by
    split
    · exact ⟨h.live.discover, h.live.index, h.live.view, h.live.complete, h.live.refund⟩
    · exact h.live
  have hw := waited_nonneg w t.wait
  -- what is written
  have hev : ∃ more, writtenOf l.st l.action = some more ∧ Story lim z more ∧
      (z.all more).known = l.st.registered ∧ (z.all more).spent = l.st.spent ∧ (z.all more).at_ ≤ l.st.cur ∧
      (∀ e, l.action.event = some e → (z.all more).last = some e) ∧ ¬ (z.all more).fresh := by
    cases he : l.action.event with
    | none =>
      have hne : l.action ≠ .completeOrder := by intro hc; rw [hc] at he; simp [ShopAction.event] at he
      have hni : l.action ≠ .viewIndex := by intro hc; rw [hc] at he; simp [ShopAction.event] at he
      have hsp := h.spent
      rw [if_neg hne, Int.add_zero] at hsp
      exact ⟨[], by simp [writtenOf, he], trivial, h.same.known, hsp.symm, h.same.later, by simp, h.begun hni⟩
    | some e =>
      obtain ⟨x, hx, hf, hz⟩ := write_taken h he
      refine ⟨[x], by simp [writtenOf, he, hx], ⟨hf, trivial⟩, ?_⟩
      have hz' : z.all [x] = ⟨l.st.registered, l.st.spent, some e, l.st.cur⟩ := hz
      rw [hz']
      refine ⟨rfl, rfl, Int.le_refl _, by simp, ?_⟩
      intro hfr
      rcases hfr with hfr | hfr
      · cases hfr
      · simp only [Option.some.injEq] at hfr
        subst hfr
        cases ha : l.action <;> rw [ha] at he <;> simp [ShopAction.event] at he
  obtain ⟨more, hmore, hstory, hk, hsp, hat, hlast, hnf⟩ := hev
  simp only [shopRest, hb, hmore]
  by_cases hc : l.action = .completeOrder
  · rw [if_pos hc]
    by_cases hlate : l.st.cur + waited w t.wait > to
    · rw [if_pos hlate]; exact ⟨more, rfl, hstory⟩
    · rw [if_neg hlate]
      refine ⟨more, rfl, hstory, ⟨⟨hk, h.same.logged, ?_, ?_, h.same.bought⟩, hsp, hlive, ?_, Or.inr ?_, fun _ => hnf⟩⟩
      · show _ ≤ l.st.cur + waited w t.wait
        omega
      · show l.st.cur + waited w t.wait ≤ lim
        omega
      · exact next_needs h hb _ _ rfl (fun hn => absurd hc hn) hlast
      · show l.st.cur + waited w t.wait ≤ m
        omega
  · rw [if_neg hc]
    by_cases hlate : l.st.cur + waited w t.wait > to
    · rw [if_pos hlate]; exact ⟨more, rfl, hstory⟩
    · rw [if_neg hlate]
      refine ⟨more, rfl, hstory, ⟨⟨hk, h.same.logged, ?_, ?_, h.same.bought⟩, hsp, hlive, ?_, Or.inr ?_, fun _ => hnf⟩⟩
      · show _ ≤ l.st.cur + waited w t.wait
        omega
      · show l.st.cur + waited w t.wait ≤ lim
        omega
      · exact next_needs h hb _ _ rfl (fun _ => rfl) hlast
      · show l.st.cur + waited w t.wait ≤ m
        omega

theorem turn_head (lim m to : Int) (hto : to ≤ m) (hm : m ≤ lim) (products : List ShopProduct) (i : Intention) (t : ShopTurn)
    (hi : ∀ p, i ≠ .makeRefund p) (z : Seen) (l : ShopLoop) (h : Head lim m z l) : match shopTurn products to i t l with
      | .panic => False
      | .turn es l' => Story lim z es ∧ Head lim m (z.all es) l'
      | .session es s => es = [] ∧ s = l.st ∧ l.action ≠ .viewIndex
      | .user es => Story lim z es := by
  have ha := arm_head lim m products i t hi z l h
  simp only [shopTurn]
  cases harm : shopArm products i t l with
  | panic => rw [harm] at ha; exact ha
  | again evs l' =>
    rw [harm] at ha
    obtain ⟨rfl, ha⟩ := ha
    exact ⟨trivial, ha⟩
  | leave => rw [harm] at ha; exact ⟨rfl, rfl, ha⟩
  | on evs l' =>
    rw [harm] at ha
    have hr := rest_taken lim m to hto hm t evs (z.all evs) l' ha.2
    simp only []
    cases hre : shopRest to t evs l' with
    | panic => rw [hre] at hr; exact hr
    | session es s => rw [hre] at hr; exact hr.elim
    | user es =>
      rw [hre] at hr
      obtain ⟨more, rfl, hm⟩ := hr
      exact ha.1.append hm
    | turn es l'' =>
      rw [hre] at hr
      obtain ⟨more, rfl, hm, hh⟩ := hr
      exact ⟨ha.1.append hm, by rw [Seen.all_append]; exact hh⟩

theorem events_head (lim m to : Int) (hto : to ≤ m) (hm : m ≤ lim) (products : List ShopProduct) (i : Intention) (hi : ∀ p, i ≠ .makeRefund p) :
    ∀ (ts : List ShopTurn) (z : Seen) (l : ShopLoop), Head lim m z l → match shopEvents products to i ts l with
      | .panic => False
      | .open_ es => Story lim z es
      | .session es s => Story lim z es ∧ Same lim (z.all es) s ∧ (z.all es).spent = s.spent ∧ s.cur ≤ m ∧ ¬ (z.all es).fresh
      | .user es => Story lim z es := by
  intro ts
  induction ts with
  | nil => intro z l _; trivial
  | cons t ts ih =>
    intro z l h
    have ht := turn_head lim m to hto hm products i t hi z l h
    simp only [shopEvents]
    cases hturn : shopTurn products to i t l with
    | panic => rw [hturn] at ht; exact ht
    | user es => rw [hturn] at ht; exact ht
    | session es s =>
      rw [hturn] at ht
      obtain ⟨rfl, rfl, hn⟩ := ht
      exact ⟨trivial, h.same, h.spent, h.soon.resolve_left hn, h.begun hn⟩
    | turn es l' =>
      rw [hturn] at ht
      have hr := ih (z.all es) l' ht.2
      simp only []
      cases hre : shopEvents products to i ts l' with
      | panic => rw [hre] at hr; exact hr
      | open_ more => rw [hre] at hr; exact ht.1.append hr
      | user more => rw [hre] at hr; exact ht.1.append hr
      | session more s =>
        rw [hre] at hr
        obtain ⟨h1, h2, h3, h4, h5⟩ := hr
        refine ⟨ht.1.append h1, ?_, ?_, h4, ?_⟩ <;> rw [Seen.all_append] <;> assumption

theorem select_plain (products : List ShopProduct) (s : ShopState) (v : ShopVisit) (h : s.bought = []) :
    ∃ i, selectIntention products s v = some i ∧ ∀ p, i ≠ .makeRefund p := by
  simp only [selectIntention, h]
  cases hw : v.wants <;> simp

theorem weights_live (i : Intention) (h : ∀ p, i ≠ .makeRefund p) : Live (shopWeights i) := by
  cases i with
  | makeRefund p => exact absurd rfl (h p)
  | buyCertain p => exact ⟨rfl, rfl, rfl, rfl, rfl⟩
  | buyAny => exact ⟨rfl, rfl, rfl, rfl, rfl⟩
  | justBrowse => exact ⟨rfl, rfl, rfl, rfl, rfl⟩

theorem waited_le (i : Intention) (n : Nat) : waited (pauseOf i) n ≤ 1330560 := by
  have key : ∀ w : Nat, w ≤ 1209600 → waited w n ≤ 1330560 := by
    intro w hw
    have h1 : n % (w / 10 + 1) < w / 10 + 1 := Nat.mod_lt _ (by omega)
    simp only [waited]
    omega
  cases i <;> exact key _ (by simp [pauseOf])

/-- All sessions of a user. -/
theorem user_story (m to : Int) (hto : to ≤ m) (products : List ShopProduct) : ∀ (vs : List ShopVisit) (z : Seen) (s : ShopState),
    Same (m + 1330560) z s → z.spent = s.spent → s.cur ≤ m → z.fresh →
    Story (m + 1330560) z (shopUser products to vs s).1 ∧ (shopUser products to vs s).2 = false := by
  intro vs
  induction vs with
  | nil => intro z s _ _ _ _; exact ⟨trivial, rfl⟩
  | cons v vs ih =>
    intro z s hs hsp hm hf
    obtain ⟨i, hi, hr⟩ := select_plain products { s with selected := none } v hs.bought
    simp only [shopUser, hi]
    by_cases hb : v.bounced = true
    · rw [if_pos hb]; exact ⟨trivial, rfl⟩
    · rw [if_neg hb]
      have hw := waited_nonneg (pauseOf i) v.pause
      have hw' := waited_le i v.pause
      have h1 := hs.later
      have hhead : Head (m + 1330560) m z ⟨if s.sessionId > 0 then { { s with selected := none } with cur := s.cur + waited (pauseOf i) v.pause }
          else { s with selected := none }, shopWeights i, none, .viewIndex⟩ := by
        split
        · refine ⟨⟨hs.known, hs.logged, ?_, ?_, hs.bought⟩, hsp, weights_live i hr, trivial, Or.inl rfl, fun h => absurd rfl h⟩
          · show z.at_ ≤ s.cur + waited (pauseOf i) v.pause
            omega
          · show s.cur + waited (pauseOf i) v.pause ≤ m + 1330560
            omega
        · exact ⟨⟨hs.known, hs.logged, hs.later, hs.until_, hs.bought⟩, hsp, weights_live i hr, trivial, Or.inl rfl, fun h => absurd rfl h⟩
      have he := events_head (m + 1330560) m to hto (by omega) products i hr v.turns z _ hhead
      revert he
      cases shopEvents products to i v.turns _ with
      | panic => intro he; exact he.elim
      | open_ es => intro he; exact ⟨he, rfl⟩
      | user es => intro he; exact ⟨he, rfl⟩
      | session es s' =>
        intro he
        obtain ⟨h1, h2, h3, h4, h5⟩ := he
        have hwr : writeShop s' .sessionEnd = some ⟨.sessionEnd, s'.cur, s'.registered, s'.spent, s'.cart, none, s'.selected⟩ := by
          simp [writeShop, ShopEvent.aboutProduct]
        simp only [hwr]
        have hi2 := ih ((z.all es).after ⟨.sessionEnd, s'.cur, s'.registered, s'.spent, s'.cart, none, s'.selected⟩) { s' with sessionId := s'.sessionId + 1 }
          ⟨rfl, h2.logged, Int.le_refl _, h2.until_, h2.bought⟩ rfl h4 (Or.inr rfl)
        refine ⟨h1.append ⟨⟨h2.later, h2.until_, ?_, ?_, ?_, ?_, ?_, ?_, ?_, ?_⟩, hi2.1⟩, hi2.2⟩
        · simpa using h2.known.symm
        · simpa using h3.symm
        · simp
        · simp
        · simp
        · simp [ShopEvent.comesAfter]
        · exact fun h => absurd h h5
        · simp

end OptiPrism.Ingest
