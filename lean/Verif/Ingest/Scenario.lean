import Verif.Util

/-!
# Model: what the users of the demo store do (events-gen/src/store/scenario.rs)

The sessions of one user: actions, the events they are written as, and what the user has in mind, in the cart and spent. Moments are seconds, prices
integers. What is drawn at random is a parameter.

Simplified: of the weights of the transitions (coefficients.rs) only whether they are zero is kept, so that every action with a weight can come next; that
the subtraction of floats in `next_action` ends below zero is taken for granted. Advertisements, profiles, pages and the other properties of events are left
out, and so are the answers of the ingester.
-/

namespace OptiPrism.Ingest

/-- store/actions.rs 6-31. -/
inductive ShopAction where
  | register | login | logout | viewIndex | viewIndexPromotions | viewDeals | searchProduct | viewRelatedProduct | notFound | viewProduct
  | addProductToCart | viewCart | enterCustomerInformation | enterShippingMethod | enterPaymentMethod | verifyOrder | completeOrder | refundProduct
  | viewOrders | bounce | goToPreviousPage | abandonCart | endSession
deriving DecidableEq, Repr

/-- The events that are written, store/events.rs 5-48. -/
inductive ShopEvent where
  | userRegistered | userLoggedIn | indexPageViewed | dealsViewed | productSearched | notFound | productViewed | productAddedToCart | cartViewed
  | customerInformationEntered | shippingMethodEntered | paymentMethodEntered | orderVerified | orderCompleted | productRefunded | ordersViewed | sessionEnd
deriving DecidableEq, Repr

/-- `to_event`, store/actions.rs 34-56. -/
def ShopAction.event : ShopAction → Option ShopEvent
  | .viewIndex => some .indexPageViewed
  | .viewDeals => some .dealsViewed
  | .searchProduct => some .productSearched
  | .notFound => some .notFound
  | .viewRelatedProduct => some .productViewed
  | .viewProduct => some .productViewed
  | .addProductToCart => some .productAddedToCart
  | .viewCart => some .cartViewed
  | .enterCustomerInformation => some .customerInformationEntered
  | .enterShippingMethod => some .shippingMethodEntered
  | .enterPaymentMethod => some .paymentMethodEntered
  | .verifyOrder => some .orderVerified
  | .completeOrder => some .orderCompleted
  | .refundProduct => some .productRefunded
  | .viewOrders => some .ordersViewed
  | .register => some .userRegistered
  | .login => some .userLoggedIn
  | _ => none

/-- store/products.rs 28-40; names and categories are numbers here. -/
structure ShopProduct where
  name : Nat
  category : Nat
  price : Int
  discount : Option Int
deriving DecidableEq, Repr

/-- `final_price`, store/products.rs 43-45. -/
def ShopProduct.final (p : ShopProduct) : Int := p.discount.getD p.price

/-- store/intention.rs 8-14. -/
inductive Intention where
  | buyCertain (p : ShopProduct)
  | buyAny
  | justBrowse
  | makeRefund (p : ShopProduct)
deriving DecidableEq, Repr

/-- `State`, scenario.rs 44-59. -/
structure ShopState where
  sessionId : Nat
  eventId : Nat
  cur : Int
  selected : Option ShopProduct
  bought : List (ShopProduct × Nat)
  viewed : List (ShopProduct × Nat)
  refunded : List ShopProduct
  cart : List ShopProduct
  spent : Int
  registered : Bool
  loggedIn : Bool

/-- Which of the weights are not zero, store/coefficients.rs 5-23. -/
structure ShopWeights where
  abandonCart : Bool
  cartCompletion : Bool
  discover : Bool
  searchForProduct : Bool
  goToIndex : Bool
  bounceRate : Bool
  buyMultiple : Bool
  searchQuality : Bool
  viewProductToBuy : Bool
  viewCart : Bool
  refund : Bool
  register : Bool
  login : Bool

/-- `make_coefficients`, store/coefficients.rs 25-110; the factors of advertisements (120-180) are not zero. -/
def shopWeights : Intention → ShopWeights
  | .buyCertain _ => ⟨true, true, true, false, true, true, false, true, true, true, false, true, true⟩
  | .buyAny => ⟨true, true, true, false, true, true, true, true, true, true, false, true, true⟩
  | .justBrowse => ⟨true, true, true, false, true, true, true, true, true, true, false, true, true⟩
  | .makeRefund _ => ⟨false, false, false, false, true, false, false, false, false, false, true, false, true⟩

/-- `make_transitions`, store/transitions.rs 5-104: what can come next, whether it has a weight, and how many seconds it takes. -/
def shopRow (c : ShopWeights) : ShopAction → List (ShopAction × Bool × Nat)
  | .viewIndex => [(.viewIndexPromotions, c.discover, 3), (.searchProduct, c.discover, 15), (.searchProduct, c.searchForProduct, 6), (.viewDeals, c.discover, 8),
      (.bounce, c.bounceRate, 5), (.viewOrders, c.refund, 7), (.register, c.register, 60), (.login, c.login, 20)]
  | .viewIndexPromotions => [(.viewProduct, c.discover, 10), (.viewIndex, c.goToIndex, 0), (.register, c.register, 60), (.login, c.login, 20)]
  | .viewDeals => [(.viewProduct, c.discover, 10), (.viewIndex, c.goToIndex, 5), (.bounce, c.bounceRate, 5), (.register, c.register, 60), (.login, c.login, 20)]
  | .viewOrders => [(.refundProduct, c.refund, 10), (.register, c.register, 60), (.login, c.login, 20)]
  | .refundProduct => [(.endSession, true, 0), (.register, c.register, 60), (.login, c.login, 20)]
  | .searchProduct => [(.viewProduct, c.discover, 15), (.notFound, c.searchQuality, 4), (.viewIndex, c.goToIndex, 5), (.register, c.register, 60),
      (.login, c.login, 20), (.bounce, c.bounceRate, 5)]
  | .notFound => [(.searchProduct, c.discover, 0), (.viewIndex, c.goToIndex, 0), (.bounce, c.bounceRate, 0)]
  | .viewProduct => [(.viewIndex, c.goToIndex, 5), (.viewRelatedProduct, c.discover, 20), (.addProductToCart, c.viewProductToBuy, 30),
      (.register, c.register, 60), (.login, c.login, 20), (.bounce, c.bounceRate, 5)]
  | .viewRelatedProduct => [(.viewIndex, c.goToIndex, 5), (.viewRelatedProduct, c.discover, 20), (.addProductToCart, c.viewProductToBuy, 30),
      (.register, c.register, 60), (.login, c.login, 20), (.bounce, c.bounceRate, 5)]
  | .addProductToCart => [(.searchProduct, c.buyMultiple, 6), (.viewIndex, c.buyMultiple, 5), (.viewRelatedProduct, c.discover, 10), (.viewCart, c.viewCart, 5),
      (.abandonCart, c.abandonCart, 5), (.register, c.register, 60), (.login, c.login, 20)]
  | .viewCart => [(.enterCustomerInformation, c.viewCart, 5), (.abandonCart, c.abandonCart, 5), (.register, c.register, 60), (.login, c.login, 20)]
  | .enterCustomerInformation => [(.enterShippingMethod, c.cartCompletion, 20), (.abandonCart, c.abandonCart, 5)]
  | .enterShippingMethod => [(.enterPaymentMethod, c.cartCompletion, 15), (.abandonCart, c.abandonCart, 5)]
  | .enterPaymentMethod => [(.verifyOrder, c.cartCompletion, 20), (.abandonCart, c.abandonCart, 5)]
  | .verifyOrder => [(.completeOrder, c.cartCompletion, 10), (.abandonCart, c.abandonCart, 5)]
  | .completeOrder => [(.endSession, true, 10)]
  | .register => [(.register, true, 20)]
  | .login => [(.login, true, 20)]
  | _ => []

/-- `next_action`, scenario.rs 767-793: one of those with a weight, `n` being what is drawn. `none` is `unreachable!`. -/
def nextShop (c : ShopWeights) (a : ShopAction) (n : Nat) : Option (ShopAction × Nat) :=
  let l := (shopRow c a).filter fun x => x.2.1
  (l[n % l.length]?).map fun x => (x.1, x.2.2)

/-- An event as it is written, scenario.rs 491-761: who is known, what was spent and is in the cart then, and the revenue. -/
structure ShopTrack where
  event : ShopEvent
  at_ : Int
  known : Bool
  spent : Int
  cart : List ShopProduct
  revenue : Option Int
  product : Option ShopProduct
deriving DecidableEq, Repr

/-- The price of a cart, scenario.rs 715-719. -/
def cartAmount (l : List ShopProduct) : Int := (l.map ShopProduct.final).sum

/-- Events about a product, scenario.rs 532-547: `selected_product.unwrap()`. -/
def ShopEvent.aboutProduct : ShopEvent → Bool
  | .productViewed | .productAddedToCart => true
  | _ => false

/-- `write_event`, scenario.rs 491-761. `none` is a panic: no product where the event is about one, or an order completed with an empty cart. -/
def writeShop (s : ShopState) (e : ShopEvent) : Option ShopTrack :=
  if e.aboutProduct && s.selected.isNone then none
  else if e = .orderCompleted && s.cart.isEmpty then none
  else some ⟨e, s.cur, s.registered, s.spent, s.cart, if e = .orderCompleted then some (cartAmount s.cart) else none, s.selected⟩

/-- Drawn for one turn of the loop over events. -/
structure ShopTurn where
  /-- Which products a search hits, in their order. -/
  hits : List Bool
  promoted : ShopProduct
  deal : ShopProduct
  pick : Nat
  wait : Nat

/-- What the loop over events goes round with: scenario.rs 229-238. -/
structure ShopLoop where
  st : ShopState
  weights : ShopWeights
  prev : Option ShopAction
  action : ShopAction

/-- How an arm of the `match` ends: in a panic, by `continue`, by `break 'events`, or by going on behind the `match`. -/
inductive ShopArm where
  | panic
  | again (evs : List ShopTrack) (l : ShopLoop)
  | leave
  | on (evs : List ShopTrack) (l : ShopLoop)

/-- Products seen before: `products_viewed` has one of the name. -/
def ShopState.saw (s : ShopState) (p : ShopProduct) : Bool := s.viewed.any fun x => x.1.name = p.name

/-- `iter_mut().find(..)` and `*v += 1`: products that are not there are not put there. -/
def countUp (p : ShopProduct) : List (ShopProduct × Nat) → List (ShopProduct × Nat)
  | [] => []
  | x :: l => if x.1.name = p.name then (x.1, x.2 + 1) :: l else x :: countUp p l

/-- The product of a search, scenario.rs 267-287: the first hit not seen before. -/
def searched (s : ShopState) : List ShopProduct → List Bool → Option ShopProduct
  | [], _ => none
  | p :: ps, hs => if s.saw p then searched s ps hs.tail else if hs.headD false then some p else searched s ps hs.tail

/-- An order completed, scenario.rs 376-387. -/
def bookOrder (s : ShopState) : ShopState :=
  s.cart.foldl (fun s p => { s with bought := countUp p s.bought, spent := s.spent + p.final }) s

/-- Registering, scenario.rs 317-372: the event, then the login, unless registered. -/
def registerShop (s : ShopState) : Option (List ShopTrack × ShopState) :=
  if s.registered then some ([], s)
  else
    let s := { s with registered := true, loggedIn := true }
    match writeShop s .userRegistered, writeShop s .userLoggedIn with
    | some a, some b => some ([a, b], s)
    | _, _ => none

/-- The login, scenario.rs 304-311, of somebody registered. -/
def loginShop (s : ShopState) : Option (List ShopTrack × ShopState) :=
  if s.loggedIn then some ([], s)
  else match writeShop s .userLoggedIn with
    | some a => some ([a], { s with loggedIn := true })
    | none => none

/-- The `match` of the loop, scenario.rs 242-438, its arms put together by action. Products are compared by name (396-402, 415-421). -/
def shopArm (products : List ShopProduct) (i : Intention) (t : ShopTurn) (l : ShopLoop) : ShopArm :=
  match l.action with
  | .endSession => match i with
    | .makeRefund _ => .leave
    | _ => if l.st.cart.isEmpty then .leave else .on [] { l with action := .viewCart }
  | .viewProduct => match l.prev with
    | some .searchProduct => match i with
      | .buyCertain p => .on [] { l with st := { l.st with selected := some p } }
      | _ =>
        let sel := (searched l.st products t.hits).or l.st.selected
        if sel.isNone then .again [] { l with prev := some .viewProduct, action := .endSession }
        else .on [] { l with st := { l.st with selected := sel } }
    | some .viewIndexPromotions =>
      if l.st.saw t.promoted then .again [] { l with action := .endSession }
      else .on [] { l with st := { l.st with selected := some t.promoted } }
    | some .viewDeals =>
      if l.st.saw t.deal then .again [] { l with action := .endSession }
      else .on [] { l with st := { l.st with selected := some t.deal, viewed := countUp t.deal l.st.viewed } }
    | _ => .on [] l
  | .addProductToCart => match l.st.selected with
    | none => .panic
    | some p => .on [] { l with st := { l.st with cart := l.st.cart ++ [p] } }
  | .login =>
    if !l.st.registered then .again [] { l with action := .register }
    else match loginShop l.st, l.prev with
      | some (evs, s), some a => .again evs { l with st := s, action := a, weights := { l.weights with login := false } }
      | _, _ => .panic
  | .register => match registerShop l.st, l.prev with
    | some (evs, s), some a => .on evs { l with st := s, action := a, weights := { l.weights with register := false, login := false } }
    | _, _ => .panic
  | .completeOrder => .on [] { l with st := bookOrder l.st }
  | .viewRelatedProduct => match l.st.selected with
    | none => .panic
    | some p => match products.find? (fun x => x.category = p.category && x.name ≠ p.name) with
      | none => .again [] { l with action := .endSession }
      | some q => .on [] { l with st := { l.st with selected := some q, viewed := countUp q l.st.viewed } }
  | .refundProduct => match l.prev, i with
    | some .viewOrders, .makeRefund p => .on [] { l with st := { l.st with spent := l.st.spent - p.final } }
    | _, _ => .on [] l
  | .bounce => .leave
  | .abandonCart => .leave
  | _ => .on [] l

/-- How a turn of the loop ends: in a panic, with the next turn, with the session, or with the user (`break 'session`). -/
inductive ShopOut where
  | panic
  | turn (evs : List ShopTrack) (l : ShopLoop)
  | session (evs : List ShopTrack) (s : ShopState)
  | user (evs : List ShopTrack)

/-- The time an action takes, scenario.rs 455-456: between `w` and a tenth more. -/
def waited (w n : Nat) : Int := ((w + n % (w / 10 + 1) : Nat) : Int)

/-- The event of an action, if it has one, scenario.rs 443-446. -/
def writtenOf (s : ShopState) (a : ShopAction) : Option (List ShopTrack) :=
  match a.event with
  | none => some []
  | some e => (writeShop s e).map fun x => [x]

/-- What is behind the `match`, scenario.rs 440-465. -/
def shopRest (to : Int) (t : ShopTurn) (evs : List ShopTrack) (l : ShopLoop) : ShopOut :=
  match nextShop l.weights l.action t.pick, writtenOf l.st l.action with
  | some (a, w), some ev =>
    let s := if l.action = .completeOrder then { l.st with cart := [] } else l.st
    let s := { s with cur := s.cur + waited w t.wait }
    if s.cur > to then .user (evs ++ ev)
    else .turn (evs ++ ev) ⟨{ s with eventId := s.eventId + 1 }, if s.eventId = 0 then { l.weights with bounceRate := false } else l.weights, some l.action, a⟩
  | _, _ => .panic

/-- One turn. -/
def shopTurn (products : List ShopProduct) (to : Int) (i : Intention) (t : ShopTurn) (l : ShopLoop) : ShopOut :=
  match shopArm products i t l with
  | .panic => .panic
  | .again evs l => .turn evs l
  | .leave => .session [] l.st
  | .on evs l => shopRest to t evs l

/-- How the model of a loop ends: in a panic, open (no more draws), with the session, or with the user. -/
inductive ShopEnd where
  | panic
  | open_ (evs : List ShopTrack)
  | session (evs : List ShopTrack) (s : ShopState)
  | user (evs : List ShopTrack)

/-- The loop over events. -/
def shopEvents (products : List ShopProduct) (to : Int) (i : Intention) : List ShopTurn → ShopLoop → ShopEnd
  | [], _ => .open_ []
  | t :: ts, l => match shopTurn products to i t l with
    | .panic => .panic
    | .session evs s => .session evs s
    | .user evs => .user evs
    | .turn evs l => match shopEvents products to i ts l with
      | .panic => .panic
      | .open_ more => .open_ (evs ++ more)
      | .session more s => .session (evs ++ more) s
      | .user more => .user (evs ++ more)

/-- Drawn for one session: whether a refund is considered, for which product bought, what is wanted otherwise, how much time has passed beyond the least, and
whether the user stays away. -/
structure ShopVisit where
  refund : Bool
  which : List Bool
  wants : Intention
  pause : Nat
  bounced : Bool
  turns : List ShopTurn

/-- The product to be given back, store/intention.rs 22-37. -/
def refundOf (s : ShopState) : List (ShopProduct × Nat) → List Bool → Option ShopProduct
  | [], _ => none
  | x :: l, hs => if hs.headD false && !(s.refunded.any fun p => p.name = x.1.name) then some x.1 else refundOf s l hs.tail

/-- `select_intention`, store/intention.rs 16-53. `none` is a panic: the product is not among those of the store. Where there is no refund, `wants` is what is
drawn; it is none. -/
def selectIntention (products : List ShopProduct) (s : ShopState) (v : ShopVisit) : Option Intention :=
  let other := match v.wants with | .makeRefund _ => Intention.buyAny | w => w
  if s.sessionId > 0 && !s.bought.isEmpty && v.refund then
    match refundOf s s.bought v.which with
    | some p => (products.find? fun x => x.name = p.name).map .makeRefund
    | none => some other
  else some other

/-- Seconds until the next session, scenario.rs 213-218. -/
def pauseOf : Intention → Nat
  | .makeRefund _ => 604800
  | _ => 1209600

/-- The loop over sessions, scenario.rs 207-481: `true` is a panic. -/
def shopUser (products : List ShopProduct) (to : Int) : List ShopVisit → ShopState → List ShopTrack × Bool
  | [], _ => ([], false)
  | v :: vs, s =>
    let s := { s with selected := none }
    match selectIntention products s v with
    | none => ([], true)
    | some i =>
      let s := if s.sessionId > 0 then { s with cur := s.cur + waited (pauseOf i) v.pause } else s
      if v.bounced then ([], false)
      else match shopEvents products to i v.turns ⟨s, shopWeights i, none, .viewIndex⟩ with
        | .panic => ([], true)
        | .open_ evs => (evs, false)
        | .user evs => (evs, false)
        | .session evs s => match writeShop s .sessionEnd with
          | none => (evs, true)
          | some e =>
            let r := shopUser products to vs { s with sessionId := s.sessionId + 1 }
            (evs ++ e :: r.1, r.2)

/-- A new user, scenario.rs 128-143. -/
def newShopper (ts : Int) : ShopState := ⟨0, 0, ts, none, [], [], [], [], 0, false, false⟩

end OptiPrism.Ingest
