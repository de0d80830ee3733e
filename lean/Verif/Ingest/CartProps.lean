import Verif.Ingest.Cart
import Verif.Ingest.ScenarioProps

/-!
# C161: nothing is in a cart that was not said to be added
-/

namespace OptiPrism.Ingest

/-- **C161, in part.** Whatever is drawn, at each event of a user the cart has at most as many products as were said to be added since the last order.
Missing: exactly as many; see `C161_added_violated`. -/
theorem C161_cart_partial (products : List ShopProduct) (to ts : Int) (vs : List ShopVisit) (pre post : List ShopTrack) (e : ShopTrack)
    (h : (shopUser products to vs (newShopper ts)).1 = pre ++ e :: post) :
    e.cart.length ≤ addedSince 0 pre + (if e.event = .productAddedToCart then 1 else 0) := by
  have hs := user_cart products to vs 0 (newShopper ts) (Nat.zero_le _)
  rw [h] at hs
  exact hs.at_event

/-- The case of C161: two were said to be added before the order, one is sold. -/
example : ∃ pre e post, (shopUser [demoShirt, demoHat] 1000 [demoVisit] (newShopper 0)).1 = pre ++ e :: post ∧ e.event = .orderCompleted ∧ addedSince 0 pre = 2 ∧
    e.cart.length = 1 :=
  let es := (shopUser [demoShirt, demoHat] 1000 [demoVisit] (newShopper 0)).1
  ⟨es.take 12, es[12]'(by decide +kernel), es.drop 13, by decide +kernel, by decide +kernel, by decide +kernel, by decide +kernel⟩

end OptiPrism.Ingest
