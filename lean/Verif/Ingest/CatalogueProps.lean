import Verif.Ingest.Catalogue
import Verif.Ingest.ScenarioProps

/-!
# C162: the demo store offers what its file has
-/

namespace OptiPrism.Ingest

theorem mem_differentOf {x : Nat} : ∀ {l : List Nat}, x ∈ differentOf l ↔ x ∈ l
  | [] => Iff.rfl
  | y :: l => by
    simp only [differentOf]
    split
    · rename_i h
      rw [mem_differentOf, List.mem_cons]
      exact ⟨Or.inr, fun hx => hx.elim (fun he => he ▸ h) id⟩
    · rw [List.mem_cons, List.mem_cons, mem_differentOf]

theorem nodup_differentOf : ∀ l : List Nat, (differentOf l).Nodup
  | [] => .nil
  | y :: l => by
    simp only [differentOf]
    split
    · exact nodup_differentOf l
    · rename_i h
      exact List.nodup_cons.2 ⟨fun hm => h (mem_differentOf.1 hm), nodup_differentOf l⟩

theorem different_length {l m : List Nat} (h : l.Nodup) (hs : ∀ x ∈ l, x ∈ m) : l.length ≤ m.length := by
  induction l generalizing m with
  | nil => simp
  | cons a l ih =>
    rw [List.nodup_cons] at h
    have ha := hs a (by simp)
    have := ih (m := m.erase a) h.2 fun x hx => by
      rw [List.mem_erase_of_ne]
      · exact hs x (by simp [hx])
      · rintro rfl; exact h.1 hx
    rw [List.length_erase_of_mem ha] at this
    have : 0 < m.length := List.length_pos_of_mem ha
    simp; omega

/-- Four rows of the file have different categories. -/
def FourCategories (rows : List (ShopRow × Bool)) : Prop :=
  ∃ l : List Nat, l.Nodup ∧ l.length = 4 ∧ ∀ x ∈ l, ∃ r ∈ rows, r.1.category = x

/-- The store that is built, once it is. -/
theorem catalogueOf_eq {shuffle : List ShopProduct → List ShopProduct} {rows : List (ShopRow × Bool)} {c : Catalogue} (h : catalogueOf shuffle rows = some c) :
    c = ⟨shuffle (rows.map fun r => productOf r.1 r.2), (shuffle (rows.map fun r => productOf r.1 r.2)).take 5,
      (shuffle (rows.map fun r => productOf r.1 r.2)).filter fun p => p.discount.isSome⟩ ∧ 5 ≤ (shuffle (rows.map fun r => productOf r.1 r.2)).length := by
  simp only [catalogueOf] at h
  split at h
  · cases h
  · split at h
    · cases h
    · split at h
      · cases h
      · cases h
        exact ⟨rfl, by omega⟩

/-- **C162.** The store comes up if and only if its file has five products, and four different categories. -/
theorem C162_store (shuffle : List ShopProduct → List ShopProduct) (hs : ∀ l, (shuffle l).Perm l) (rows : List (ShopRow × Bool)) :
    (∃ c, catalogueOf shuffle rows = some c) ↔ 5 ≤ rows.length ∧ FourCategories rows := by
  have hlen : (shuffle (rows.map fun r => productOf r.1 r.2)).length = rows.length := by rw [(hs _).length_eq, List.length_map]
  have hcat : ∀ x, x ∈ differentOf ((shuffle (rows.map fun r => productOf r.1 r.2)).map (·.category)) ↔ ∃ r ∈ rows, r.1.category = x := by
    intro x
    rw [mem_differentOf, List.mem_map]
    constructor
    · rintro ⟨p, hp, rfl⟩
      obtain ⟨r, hr, rfl⟩ := List.mem_map.1 ((hs _).mem_iff.1 hp)
      exact ⟨r, hr, rfl⟩
    · rintro ⟨r, hr, rfl⟩
      exact ⟨productOf r.1 r.2, (hs _).mem_iff.2 (List.mem_map.2 ⟨r, hr, rfl⟩), rfl⟩
  have hfour : 4 ≤ (differentOf ((shuffle (rows.map fun r => productOf r.1 r.2)).map (·.category))).length ↔ FourCategories rows := by
    constructor
    · intro h
      refine ⟨(differentOf ((shuffle (rows.map fun r => productOf r.1 r.2)).map (·.category))).take 4, (nodup_differentOf _).sublist (List.take_sublist _ _), ?_, ?_⟩
      · rw [List.length_take]; omega
      · intro x hx
        exact (hcat x).1 (List.mem_of_mem_take hx)
    · rintro ⟨l, hn, hl, hm⟩
      have := different_length hn (m := differentOf ((shuffle (rows.map fun r => productOf r.1 r.2)).map (·.category))) fun x hx => (hcat x).2 (hm x hx)
      omega
  rw [← hfour]
  rw [← hlen]
  simp only [catalogueOf]
  constructor
  · rintro ⟨c, hc⟩
    split at hc
    · cases hc
    · split at hc
      · cases hc
      · split at hc
        · cases hc
        · rename_i h1 h2 h3
          exact ⟨by omega, by simpa [splineOk] using h3⟩
  · rintro ⟨h1, h2⟩
    rw [if_neg (by simp [splineOk]; omega), if_neg (by omega), if_neg (by simpa [splineOk] using h2)]
    exact ⟨_, rfl⟩

/-- **C162.** Its products are those of the file, each once: name, category and price, with or without a discount of a tenth. -/
theorem C162_products (shuffle : List ShopProduct → List ShopProduct) (hs : ∀ l, (shuffle l).Perm l) (rows : List (ShopRow × Bool)) (c : Catalogue)
    (h : catalogueOf shuffle rows = some c) :
    (c.products.map fun p => (p.name, p.category, p.price)).Perm (rows.map fun r => (r.1.name, r.1.category, 10 * r.1.units)) ∧
    ∀ p ∈ c.products, ∀ d, p.discount = some d → 10 * d = 9 * p.price := by
  obtain ⟨rfl, -⟩ := catalogueOf_eq h
  constructor
  · have := (hs (rows.map fun r => productOf r.1 r.2)).map fun p => (p.name, p.category, p.price)
    simpa [List.map_map, Function.comp_def, productOf] using this
  · intro p hp d hd
    obtain ⟨r, hr, rfl⟩ := List.mem_map.1 ((hs _).mem_iff.1 hp)
    simp only [productOf] at hd ⊢
    split at hd
    · cases hd; omega
    · cases hd

/-- **C162.** A promotion can always be drawn, and is a product of the store; so is a product that is wanted. -/
theorem C162_samples (shuffle : List ShopProduct → List ShopProduct) (rows : List (ShopRow × Bool)) (c : Catalogue)
    (h : catalogueOf shuffle rows = some c) (n : Nat) : (∃ p ∈ c.products, c.promotion n = some p) ∧ ∃ p ∈ c.products, c.wanted n = some p := by
  obtain ⟨rfl, hl⟩ := catalogueOf_eq h
  have h5 : n % 5 < 5 := Nat.mod_lt _ (by omega)
  have h4 : n % 4 < 4 := Nat.mod_lt _ (by omega)
  constructor
  · simp only [Catalogue.promotion]
    rw [List.getElem?_take_of_lt h5, List.getElem?_eq_getElem (by omega)]
    exact ⟨_, List.getElem_mem _, rfl⟩
  · simp only [Catalogue.wanted]
    rw [List.getElem?_eq_getElem (by omega)]
    exact ⟨_, List.getElem_mem _, rfl⟩

/-- **C162, in part.** If at least five products have a discount, a deal can always be drawn; it is a product of the store, and cheaper by a tenth. Missing: that
this needs no condition; see `C162_deals_violated`. -/
theorem C162_deals_partial (shuffle : List ShopProduct → List ShopProduct) (hs : ∀ l, (shuffle l).Perm l) (rows : List (ShopRow × Bool)) (c : Catalogue)
    (h : catalogueOf shuffle rows = some c) (hd : 5 ≤ (rows.filter fun r => r.2).length) (n : Nat) :
    ∃ p ∈ c.products, c.deal n = some p ∧ ∃ d, p.discount = some d ∧ 10 * d = 9 * p.price := by
  have hp := (C162_products shuffle hs rows c h).2
  obtain ⟨rfl, hl⟩ := catalogueOf_eq h
  have h5 : n % 5 < 5 := Nat.mod_lt _ (by omega)
  have hlen : ((shuffle (rows.map fun r => productOf r.1 r.2)).filter fun p => p.discount.isSome).length = (rows.filter fun r => r.2).length := by
    rw [((hs _).filter _).length_eq, List.filter_map, List.length_map]
    congr 2
    funext r
    simp only [Function.comp, productOf]
    cases r.2 <;> rfl
  simp only [Catalogue.deal]
  rw [List.getElem?_eq_getElem (by rw [hlen]; omega)]
  have hm := List.mem_filter.1 (List.getElem_mem (l := (shuffle (rows.map fun r => productOf r.1 r.2)).filter fun p => p.discount.isSome) (n := n % 5) (by rw [hlen]; omega))
  obtain ⟨d, hd'⟩ := Option.isSome_iff_exists.1 hm.2
  exact ⟨_, hm.1, rfl, d, hd', hp _ hm.1 d hd'⟩

/-- **C162.** If what is drawn are products of the store, all events of a user are about products of the store, and so is all that is in the cart. -/
theorem C162_sold (products : List ShopProduct) (to ts : Int) (vs : List ShopVisit) (hv : ∀ v ∈ vs, OwnVisit products v) :
    ∀ e ∈ (shopUser products to vs (newShopper ts)).1, (∀ p, e.product = some p → p ∈ products) ∧ ∀ p ∈ e.cart, p ∈ products := by
  intro e he
  have := user_own vs (newShopper ts) hv ⟨by simp [newShopper], by simp [newShopper]⟩ e he
  exact ⟨this.product, this.cart⟩

/-- **C162.** In a store without negative prices no order has a negative revenue. -/
theorem C162_revenue (shuffle : List ShopProduct → List ShopProduct) (hs : ∀ l, (shuffle l).Perm l) (rows : List (ShopRow × Bool)) (c : Catalogue)
    (h : catalogueOf shuffle rows = some c) (hp : ∀ r ∈ rows, 0 ≤ r.1.units) (to ts : Int) (vs : List ShopVisit) (hv : ∀ v ∈ vs, OwnVisit c.products v) :
    ∀ e ∈ (shopUser c.products to vs (newShopper ts)).1, ∀ x, e.revenue = some x → 0 ≤ x := by
  intro e he x hx
  have hown := (C162_sold c.products to ts vs hv e he).2
  obtain ⟨pre, post, hpp⟩ := List.append_of_mem he
  have hst := C161_story c.products to ts vs
  rw [hpp] at hst
  have hr := hst.at_event.revenue
  rw [hx] at hr
  split at hr
  · cases hr
    have key : ∀ l : List ShopProduct, (∀ p ∈ l, p ∈ c.products) → 0 ≤ (l.map fun p => p.discount.getD p.price).sum := by
      intro l
      induction l with
      | nil => intro _; simp
      | cons p l ih =>
        intro hl
        have h1 := ih fun q hq => hl q (List.mem_cons_of_mem _ hq)
        have h2 : 0 ≤ p.discount.getD p.price := by
          have hm := hl p List.mem_cons_self
          obtain ⟨rfl, -⟩ := catalogueOf_eq h
          obtain ⟨r, hr, rfl⟩ := List.mem_map.1 ((hs _).mem_iff.1 hm)
          have := hp r hr
          simp only [productOf]
          split <;> simp <;> omega
        simp only [List.map_cons, List.sum_cons]
        omega
    exact key _ hown
  · cases hr

/-! ### Cases -/

/-- Six products of four categories; the first `n` get a discount. -/
def demoRows (n : Nat) : List (ShopRow × Bool) := (List.range 6).map fun i => (⟨i, i % 4, i + 1⟩, decide (i < n))

example : (catalogueOf id (demoRows 5)).isSome = true ∧ 5 ≤ ((demoRows 5).filter fun r => r.2).length ∧ (∀ r ∈ demoRows 5, 0 ≤ r.1.units) ∧
    5 ≤ (demoRows 5).length := by decide +kernel

example : ((catalogueOf id (demoRows 5)).bind fun c => c.deal 4) = some ⟨4, 0, 50, some 45⟩ := by decide +kernel

/-- Visits that draw products of the store: those of C161. -/
example : OwnVisit [demoShirt, demoHat] demoVisit := by
  refine ⟨(by intro p hp; cases hp), ?_⟩
  decide +kernel

/-- **C162 does not hold of deals**: with fewer than five discounts drawn, looking at deals can panic. -/
theorem C162_deals_violated : ¬ ∀ (rows : List (ShopRow × Bool)) (c : Catalogue), catalogueOf id rows = some c → ∀ n, ∃ p, c.deal n = some p := by
  intro h
  have h1 := h (demoRows 4) _ rfl 4
  obtain ⟨p, hp⟩ := h1
  have h2 : ((catalogueOf id (demoRows 4)).bind fun c => c.deal 4) = none := by decide +kernel
  exact absurd (h2.symm.trans hp) (by simp)

/-- **C162 does not hold of what is wanted**: any product of the store can be the one a user wants. Only the first four can. -/
theorem C162_wanted_violated : ¬ ∀ (rows : List (ShopRow × Bool)) (c : Catalogue), catalogueOf id rows = some c → ∀ p ∈ c.products, ∃ n, c.wanted n = some p := by
  intro h
  obtain ⟨n, hn⟩ := h (demoRows 5) _ rfl ⟨4, 0, 50, some 45⟩ (by decide +kernel)
  have key : ∀ k < 4, ((catalogueOf id (demoRows 5)).bind fun c => c.products[k]?) ≠ some ⟨4, 0, 50, some 45⟩ := by decide +kernel
  exact key (n % 4) (Nat.mod_lt _ (by omega)) hn

end OptiPrism.Ingest
