import Verif.Ingest.ScenarioStory

/-!
# C161: the events of a demo user tell a possible story

`Story` (`ScenarioStory.lean`) says, event by event, what may follow what has been seen. It knows nothing of actions, weights or the loop.
-/

namespace OptiPrism.Ingest

/-- Nothing seen of somebody who comes at `ts`. -/
def nobody (ts : Int) : Seen := ⟨false, 0, none, ts⟩

/-- **C161.** Whatever is drawn, generating the events of a user never panics. -/
theorem C161_no_panic (products : List ShopProduct) (to ts : Int) (vs : List ShopVisit) : (shopUser products to vs (newShopper ts)).2 = false :=
  (user_story (max to ts) to (by omega) products vs (nobody ts) (newShopper ts) ⟨rfl, rfl, Int.le_refl _, by simp only [newShopper]; omega, rfl⟩ rfl
    (by simp only [newShopper]; omega) (Or.inl rfl)).2

/-- **C161.** Whatever is drawn, the events of a user are a possible story. -/
theorem C161_story (products : List ShopProduct) (to ts : Int) (vs : List ShopVisit) :
    Story (max to ts + 1330560) (nobody ts) (shopUser products to vs (newShopper ts)).1 :=
  (user_story (max to ts) to (by omega) products vs (nobody ts) (newShopper ts) ⟨rfl, rfl, Int.le_refl _, by simp only [newShopper]; omega, rfl⟩ rfl
    (by simp only [newShopper]; omega) (Or.inl rfl)).1

/-- An event in its place. -/
theorem Story.at_event {lim : Int} : ∀ {pre : List ShopTrack} {z : Seen} {e : ShopTrack} {post : List ShopTrack}, Story lim z (pre ++ e :: post) → ShopFits lim (z.all pre) e
  | [], _, _, _, h => h.1
  | _ :: pre, _, _, _, h => Story.at_event (pre := pre) h.2

theorem Story.front {lim : Int} : ∀ {a b : List ShopTrack} {z : Seen}, Story lim z (a ++ b) → Story lim z a
  | [], _, _, _ => trivial
  | _ :: a, _, _, h => ⟨h.1, Story.front (a := a) h.2⟩

theorem Story.spent {lim : Int} : ∀ {l : List ShopTrack} {z : Seen}, Story lim z l → (z.all l).spent = z.spent + (l.map fun e => e.revenue.getD 0).sum
  | [], _, _ => by simp [Seen.all]
  | e :: l, z, h => by
    have h1 := Story.spent (l := l) h.2
    have h2 := h.1.spent
    show ((z.after e).all l).spent = _
    rw [h1]
    simp only [Seen.after, List.map_cons, List.sum_cons]
    omega

/-- **C161.** What a user has spent at an event is the sum of the revenues of the orders completed up to it. -/
theorem C161_spent (products : List ShopProduct) (to ts : Int) (vs : List ShopVisit) (pre post : List ShopTrack) (e : ShopTrack)
    (h : (shopUser products to vs (newShopper ts)).1 = pre ++ e :: post) : e.spent = ((pre ++ [e]).map fun e => e.revenue.getD 0).sum := by
  have hs := C161_story products to ts vs
  rw [h, List.append_cons] at hs
  have h1 := hs.front.spent
  rw [Seen.all_append] at h1
  simpa [Seen.all, Seen.after, nobody] using h1

theorem Story.known {lim : Int} : ∀ {l : List ShopTrack} {z : Seen}, Story lim z l → (z.all l).known = (z.known || l.any fun e => e.event = .userRegistered)
  | [], _, _ => by simp [Seen.all]
  | e :: l, z, h => by
    have h1 := Story.known (l := l) h.2
    have h2 := h.1.known
    show ((z.after e).all l).known = _
    rw [h1]
    simp only [Seen.after, List.any_cons]
    by_cases he : e.event = .userRegistered
    · rw [if_pos he] at h2
      simp [h2.1, h2.2, he]
    · rw [if_neg he] at h2
      simp [h2, he]

/-- **C161.** An event names the user if and only if it comes with or after the registration. -/
theorem C161_known (products : List ShopProduct) (to ts : Int) (vs : List ShopVisit) (pre post : List ShopTrack) (e : ShopTrack)
    (h : (shopUser products to vs (newShopper ts)).1 = pre ++ e :: post) : e.known = true ↔ ∃ r ∈ pre ++ [e], r.event = .userRegistered := by
  have hs := C161_story products to ts vs
  rw [h, List.append_cons] at hs
  have h1 := hs.front.known
  rw [Seen.all_append] at h1
  have h2 : e.known = ((pre ++ [e]).any fun e => e.event = .userRegistered) := by simpa [Seen.all, Seen.after, nobody] using h1
  rw [h2, List.any_eq_true]
  simp

/-- **C161.** Nobody registers twice. -/
theorem C161_once (products : List ShopProduct) (to ts : Int) (vs : List ShopVisit) (pre post : List ShopTrack) (e : ShopTrack)
    (h : (shopUser products to vs (newShopper ts)).1 = pre ++ e :: post) (he : e.event = .userRegistered) : ∀ r ∈ pre, r.event ≠ .userRegistered := by
  have hs := C161_story products to ts vs
  rw [h] at hs
  have h1 := hs.at_event.known
  rw [if_pos he, hs.front.known] at h1
  intro r hr hc
  have h2 : (pre.any fun e => e.event = .userRegistered) = true := List.any_eq_true.2 ⟨r, hr, by simpa using hc⟩
  rw [h2] at h1
  simp at h1

/-- **C161.** An order completed comes right after it was verified, that right after the payment, the shipping, the customer and the cart: the last six
events are these. -/
theorem C161_checkout (products : List ShopProduct) (to ts : Int) (vs : List ShopVisit) (pre post : List ShopTrack) (e : ShopTrack)
    (h : (shopUser products to vs (newShopper ts)).1 = pre ++ e :: post) (he : e.event = .orderCompleted) :
    ∃ before, pre.map (·.event) = before ++ [.cartViewed, .customerInformationEntered, .shippingMethodEntered, .paymentMethodEntered, .orderVerified] := by
  have hs := C161_story products to ts vs
  rw [h] at hs
  -- the event before one that must come after another
  have step : ∀ (l : List ShopTrack) (x : ShopTrack) (p : ShopEvent) (rest : List ShopTrack),
      Story (max to ts + 1330560) (nobody ts) (l ++ x :: rest) → x.event.comesAfter = some p → ∃ l' y, l = l' ++ [y] ∧ y.event = p := by
    intro l x p rest hl hx
    have hb := hl.at_event.before p hx
    rcases List.eq_nil_or_concat l with rfl | ⟨l', y, rfl⟩
    · cases hb
    · refine ⟨l', y, by simp, ?_⟩
      rw [List.concat_eq_append, Seen.all_append] at hb
      simpa [Seen.all, Seen.after] using hb
  obtain ⟨l1, y1, rfl, h1⟩ := step pre e .orderVerified post hs (by rw [he]; rfl)
  obtain ⟨l2, y2, rfl, h2⟩ := step l1 y1 .paymentMethodEntered [] hs.front (by rw [h1]; rfl)
  obtain ⟨l3, y3, rfl, h3⟩ := step l2 y2 .shippingMethodEntered [] hs.front.front (by rw [h2]; rfl)
  obtain ⟨l4, y4, rfl, h4⟩ := step l3 y3 .customerInformationEntered [] hs.front.front.front (by rw [h3]; rfl)
  obtain ⟨l5, y5, rfl, h5⟩ := step l4 y4 .cartViewed [] hs.front.front.front.front (by rw [h4]; rfl)
  exact ⟨l5.map (·.event), by simp [h1, h2, h3, h4, h5]⟩

theorem Story.sorted {lim : Int} : ∀ {l : List ShopTrack} {z : Seen}, Story lim z l → (∀ e ∈ l, z.at_ ≤ e.at_) ∧ l.Pairwise fun a b => a.at_ ≤ b.at_
  | [], _, _ => ⟨by simp, .nil⟩
  | e :: l, z, h => by
    have h1 := Story.sorted (l := l) h.2
    have h2 := h.1.later
    refine ⟨?_, .cons (fun b hb => h1.1 b hb) h1.2⟩
    intro b hb
    rcases List.mem_cons.1 hb with rfl | hb
    · exact h2
    · have h3 : e.at_ ≤ b.at_ := h1.1 b hb
      omega

/-- **C161.** Events are written in the order of their times, and none before the user came. -/
theorem C161_times (products : List ShopProduct) (to ts : Int) (vs : List ShopVisit) :
    (∀ e ∈ (shopUser products to vs (newShopper ts)).1, ts ≤ e.at_) ∧ (shopUser products to vs (newShopper ts)).1.Pairwise fun a b => a.at_ ≤ b.at_ :=
  (C161_story products to ts vs).sorted

/-- **C161, in part.** No event lies more than 1330560 seconds (fifteen days and nearly ten hours) after the end of the time asked for. Missing: that none lies
after the end; see `C161_until_violated`. -/
theorem C161_until_partial (products : List ShopProduct) (to ts : Int) (hts : ts ≤ to) (vs : List ShopVisit) :
    ∀ e ∈ (shopUser products to vs (newShopper ts)).1, e.at_ ≤ to + 1330560 := by
  intro e he
  obtain ⟨pre, post, h⟩ := List.append_of_mem he
  have hs := C161_story products to ts vs
  rw [h] at hs
  have := hs.at_event.until_
  omega

/-- **C161.** No product is ever given back, and no list of orders looked at: what was bought is never put among the products bought. -/
theorem C161_no_refunds (products : List ShopProduct) (to ts : Int) (vs : List ShopVisit) :
    ∀ e ∈ (shopUser products to vs (newShopper ts)).1, e.event ≠ .productRefunded ∧ e.event ≠ .ordersViewed := by
  intro e he
  obtain ⟨pre, post, h⟩ := List.append_of_mem he
  have hs := C161_story products to ts vs
  rw [h] at hs
  exact hs.at_event.refunds

/-! ### Cases -/

def demoShirt : ShopProduct := ⟨1, 1, 20, some 15⟩
def demoHat : ShopProduct := ⟨2, 1, 8, none⟩

/-- A turn in which the action numbered `n` among those with a weight comes next. -/
def choose (n : Nat) : ShopTurn := ⟨[true], demoShirt, demoHat, n, 0⟩

/-- Index, search, product, cart, registering, the cart again, and all the way to the order, with the end of the session. -/
def demoVisit : ShopVisit := ⟨false, [], .buyAny, 0, false,
  [choose 1, choose 0, choose 2, choose 5, choose 3, choose 0, choose 0, choose 0, choose 0, choose 0, choose 0, choose 0]⟩

/-- The times and events of the case. -/
example : (shopUser [demoShirt, demoHat] 1000 [demoVisit] (newShopper 0)).1.map (fun e => (e.event, e.known, e.spent, e.revenue)) =
    [(.indexPageViewed, false, 0, none), (.productSearched, false, 0, none), (.productViewed, false, 0, none), (.productAddedToCart, false, 0, none),
     (.userRegistered, true, 0, none), (.userLoggedIn, true, 0, none), (.productAddedToCart, true, 0, none), (.cartViewed, true, 0, none),
     (.customerInformationEntered, true, 0, none), (.shippingMethodEntered, true, 0, none), (.paymentMethodEntered, true, 0, none),
     (.orderVerified, true, 0, none), (.orderCompleted, true, 15, some 15), (.sessionEnd, true, 15, none)] := by decide +kernel

/-- **C161 does not hold of the cart**: each time a product is added to the cart, the cart has grown since it was last written about. Somebody who registers
after adding a product is said to have added it twice, and the cart has it once. -/
theorem C161_added_violated : ¬ ∀ (products : List ShopProduct) (to ts : Int) (vs : List ShopVisit) (pre post : List ShopTrack) (d e : ShopTrack),
    (shopUser products to vs (newShopper ts)).1 = pre ++ e :: post → d ∈ pre → d.event = .productAddedToCart → e.event = .productAddedToCart →
    (∀ x ∈ pre, x.event ≠ .orderCompleted) → d.cart.length < e.cart.length := by
  intro h
  let es := (shopUser [demoShirt, demoHat] 1000 [demoVisit] (newShopper 0)).1
  have h1 := h [demoShirt, demoHat] 1000 0 [demoVisit] (es.take 6) (es.drop 7) (es[3]'(by decide +kernel)) (es[6]'(by decide +kernel))
    (by decide +kernel) (by decide +kernel) (by decide +kernel) (by decide +kernel) (by decide +kernel)
  revert h1
  decide +kernel

/-- **C161 does not hold of the end**: no event lies after the time asked for. The first event of a later session is not compared with it. -/
theorem C161_until_violated : ¬ ∀ (products : List ShopProduct) (to ts : Int) (vs : List ShopVisit), ts ≤ to →
    ∀ e ∈ (shopUser products to vs (newShopper ts)).1, e.at_ ≤ to := by
  intro h
  have h1 := h [demoShirt, demoHat] 1000 0 [demoVisit, demoVisit] (by omega)
  revert h1
  decide +kernel

/-- Cases of the theorems about an event in its place: the order, and what was seen before it. -/
example : ∃ pre e post, (shopUser [demoShirt, demoHat] 1000 [demoVisit] (newShopper 0)).1 = pre ++ e :: post ∧ e.event = .orderCompleted ∧ pre.length = 12 :=
  let es := (shopUser [demoShirt, demoHat] 1000 [demoVisit] (newShopper 0)).1
  ⟨es.take 12, es[12]'(by decide +kernel), es.drop 13, by decide +kernel, by decide +kernel, by decide +kernel⟩

example : ∃ pre e post, (shopUser [demoShirt, demoHat] 1000 [demoVisit] (newShopper 0)).1 = pre ++ e :: post ∧ e.event = .userRegistered ∧ pre.length = 4 :=
  let es := (shopUser [demoShirt, demoHat] 1000 [demoVisit] (newShopper 0)).1
  ⟨es.take 4, es[4]'(by decide +kernel), es.drop 5, by decide +kernel, by decide +kernel, by decide +kernel⟩

/-- Two sessions: the second begins two weeks later. -/
example : (shopUser [demoShirt, demoHat] 2000000 [demoVisit, demoVisit] (newShopper 0)).1.length > 20 ∧
    (shopUser [demoShirt, demoHat] 2000000 [demoVisit, demoVisit] (newShopper 0)).2 = false := by decide +kernel

end OptiPrism.Ingest
