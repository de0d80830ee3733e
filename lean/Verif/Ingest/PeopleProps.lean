import Verif.Ingest.People

/-!
# C163: the people of the demo store come from its files

Places and devices are drawn exactly as often as their weights say, people are made of rows of the files. A file of companies without companies is accepted
and every person drawn is then a panic.
-/

namespace OptiPrism.Ingest

/-- How many of the `n` numbers from `a` make `d` pick the item `i`. -/
def shareOf (d : WeightIdx) (a n i : Nat) : Nat := ((List.range' a n).filter fun x => decide (d.pick x = i)).length

theorem shareOf_append (d : WeightIdx) (a m n i : Nat) : shareOf d a (m + n) i = shareOf d a m i + shareOf d (a + m) n i := by
  unfold shareOf
  rw [← List.range'_append_1, List.filter_append, List.length_append]

theorem shareOf_all {d : WeightIdx} {a n i : Nat} (h : ∀ x, a ≤ x → x < a + n → d.pick x = i) : shareOf d a n i = n := by
  unfold shareOf
  rw [List.filter_eq_self.mpr, List.length_range']
  intro x hx
  rw [List.mem_range'_1] at hx
  simp [h x hx.1 hx.2]

theorem shareOf_none {d : WeightIdx} {a n i : Nat} (h : ∀ x, a ≤ x → x < a + n → d.pick x ≠ i) : shareOf d a n i = 0 := by
  unfold shareOf
  rw [List.length_eq_zero_iff, List.filter_eq_nil_iff]
  intro x hx
  rw [List.mem_range'_1] at hx
  simp [h x hx.1 hx.2]

theorem shareOf_congr {d e : WeightIdx} {a n i j : Nat} (h : ∀ x, a ≤ x → x < a + n → (d.pick x = i ↔ e.pick x = j)) :
    shareOf d a n i = shareOf e a n j := by
  unfold shareOf
  congr 1
  apply List.filter_congr
  intro x hx
  rw [List.mem_range'_1] at hx
  simp [h x hx.1 hx.2]

theorem pick_cons (t : Nat) (s : List Nat) (n x : Nat) :
    WeightIdx.pick ⟨t :: s, n⟩ x = if t ≤ x then WeightIdx.pick ⟨s, n⟩ x + 1 else 0 := by
  unfold WeightIdx.pick
  by_cases h : t ≤ x
  · simp [h]
  · simp [h]

theorem weighGo_total : ∀ {ws : List Int} {t : Nat} {d : WeightIdx}, weighGo t ws = .ok d →
    d.total = t + (ws.map Int.toNat).sum ∧ ∀ w ∈ ws, 0 ≤ w
  | [], t, d, h => by
    simp only [weighGo, Except.ok.injEq] at h
    subst h
    simp
  | w :: ws, t, d, h => by
    simp only [weighGo] at h
    split at h
    · cases h
    · next hw =>
      split at h
      · cases h
      · split at h
        · cases h
        · next d' hd =>
          cases h
          obtain ⟨ht, hn⟩ := weighGo_total hd
          refine ⟨by simp [ht]; omega, ?_⟩
          intro v hv
          rcases List.mem_cons.mp hv with rfl | hv
          · omega
          · exact hn v hv

/-- The sums part the numbers from `a` on: the first item has those below `t`, every other as many as its weight. -/
theorem weighGo_share : ∀ {ws : List Int} {t : Nat} {d : WeightIdx} {a : Nat}, weighGo t ws = .ok d → a ≤ t →
    shareOf d a (d.total - a) 0 = t - a ∧ ∀ i, shareOf d a (d.total - a) (i + 1) = (ws.getD i 0).toNat
  | [], t, d, a, h, ha => by
    simp only [weighGo, Except.ok.injEq] at h
    subst h
    refine ⟨shareOf_all fun x _ _ => by simp [WeightIdx.pick], fun i => ?_⟩
    rw [shareOf_none fun x _ _ => by simp [WeightIdx.pick]]
    simp
  | w :: ws, t, d, a, h, ha => by
    simp only [weighGo] at h
    split at h
    · cases h
    · next hw =>
      split at h
      · cases h
      · split at h
        · cases h
        · next d' hd =>
          cases h
          obtain ⟨ht, _⟩ := weighGo_total hd
          obtain ⟨h0, hi⟩ := weighGo_share (a := t) hd (Nat.le_add_right _ _)
          have hsplit : d'.total - a = (t - a) + (d'.total - t) := by omega
          have hat : a + (t - a) = t := by omega
          dsimp only
          constructor
          · rw [hsplit, shareOf_append, hat, shareOf_all, shareOf_none]
            · rfl
            · intro x hx _
              rw [pick_cons, if_pos hx]
              omega
            · intro x _ hx
              rw [pick_cons, if_neg (by omega)]
          · intro i
            rw [hsplit, shareOf_append, hat, shareOf_none, shareOf_congr (e := d') (j := i)]
            · cases i with
              | zero => rw [h0]; simp
              | succ i => rw [hi i]; simp
            · intro x hx _
              rw [pick_cons, if_pos hx]
              exact ⟨fun e => by cases d'; simpa using e, fun e => by cases d'; simpa using e⟩
            · intro x _ hx
              rw [pick_cons, if_neg (by omega)]
              omega

/-- **C163**: of the numbers that can be drawn, each item has exactly as many as its weight. -/
theorem C163_share {ws : List Int} {d : WeightIdx} (h : weightsNew ws = .ok d) (i : Nat) :
    ((List.range d.total).filter fun x => decide (d.pick x = i)).length = (ws.getD i 0).toNat := by
  cases ws with
  | nil => cases h
  | cons w ws =>
    simp only [weightsNew] at h
    split at h
    · cases h
    · split at h
      · cases h
      · next d' hd =>
        split at h
        · cases h
        · cases h
          obtain ⟨h0, hi⟩ := weighGo_share (a := 0) hd (Nat.zero_le _)
          rw [List.range_eq_range']
          cases i with
          | zero => simpa [shareOf] using h0
          | succ i => simpa [shareOf] using hi i

/-- Weights 2, 0 and 3: of five numbers two pick the first item, none the second, three the third. -/
example : ∃ d, weightsNew [2, 0, 3] = .ok d ∧ (List.range d.total).map d.pick = [0, 0, 2, 2, 2] := ⟨⟨[2, 2], 5⟩, rfl, by decide⟩

theorem weighGo_ok : ∀ {ws : List Int} {t : Nat}, (∀ w ∈ ws, 0 ≤ w) → t + (ws.map Int.toNat).sum < 2 ^ 31 → ∃ d, weighGo t ws = .ok d
  | [], _, _, _ => ⟨_, rfl⟩
  | w :: ws, t, hn, hs => by
    have hw := hn w (List.mem_cons_self ..)
    simp only [List.map_cons, List.sum_cons] at hs
    obtain ⟨d, hd⟩ := weighGo_ok (ws := ws) (t := t + w.toNat) (fun v hv => hn v (List.mem_cons_of_mem _ hv)) (by omega)
    refine ⟨⟨t :: d.sums, d.total⟩, ?_⟩
    simp only [weighGo]
    rw [if_neg (by omega), if_neg (by omega), hd]

theorem weighGo_small : ∀ {ws : List Int} {t : Nat} {d : WeightIdx}, weighGo t ws = .ok d → t < 2 ^ 31 → d.total < 2 ^ 31
  | [], t, d, h, ht => by
    simp only [weighGo, Except.ok.injEq] at h
    subst h
    exact ht
  | w :: ws, t, d, h, ht => by
    simp only [weighGo] at h
    split at h
    · cases h
    · split at h
      · cases h
      · split at h
        · cases h
        · next hlt _ d' hd =>
          cases h
          have := weighGo_small hd (by omega)
          exact this

/-- **C163**: weights that are `i32` are accepted exactly if there are some, none is negative and their sum is positive and an `i32`. -/
theorem C163_weights {ws : List Int} (h32 : ∀ w ∈ ws, w < 2 ^ 31) :
    (∃ d, weightsNew ws = .ok d) ↔ (∀ w ∈ ws, 0 ≤ w) ∧ 0 < (ws.map Int.toNat).sum ∧ (ws.map Int.toNat).sum < 2 ^ 31 := by
  cases ws with
  | nil => simp [weightsNew]
  | cons w ws =>
    have hw32 := h32 w (List.mem_cons_self ..)
    simp only [List.map_cons, List.sum_cons]
    constructor
    · rintro ⟨d, h⟩
      simp only [weightsNew] at h
      split at h
      · cases h
      · next hw =>
        split at h
        · cases h
        · next d' hd =>
          split at h
          · cases h
          · next hz =>
            obtain ⟨ht, hn⟩ := weighGo_total hd
            have := weighGo_small hd (by omega)
            refine ⟨?_, by omega, by omega⟩
            intro v hv
            rcases List.mem_cons.mp hv with rfl | hv
            · omega
            · exact hn v hv
    · rintro ⟨hn, hp, hs⟩
      obtain ⟨d, hd⟩ := weighGo_ok (ws := ws) (t := w.toNat) (fun v hv => hn v (List.mem_cons_of_mem _ hv)) hs
      obtain ⟨ht, _⟩ := weighGo_total hd
      have hw := hn w (List.mem_cons_self ..)
      refine ⟨d, ?_⟩
      simp only [weightsNew]
      rw [if_neg (by omega), hd]
      exact if_neg (by omega)

example : weightsNew [0, 0] = .error .allZero ∧ weightsNew [] = .error .noItem ∧ weightsNew [1, -1] = .error .negative ∧
    weightsNew [2147483647, 1] = .error .overflow := ⟨rfl, rfl, rfl, rfl⟩

theorem weights_picked {ws : List Int} {d : WeightIdx} (h : weightsNew ws = .ok d) {x : Nat} (hx : x < d.total) :
    ∃ w, ws[d.pick x]? = some w ∧ 0 < w := by
  have hc := C163_share h (d.pick x)
  have hpos : 0 < ((List.range d.total).filter fun y => decide (d.pick y = d.pick x)).length :=
    List.length_pos_of_mem (a := x) (List.mem_filter.mpr ⟨List.mem_range.mpr hx, by simp⟩)
  rw [hc, List.getD_eq_getElem?_getD] at hpos
  cases hw : ws[d.pick x]? with
  | none => rw [hw] at hpos; simp at hpos
  | some w => rw [hw] at hpos; simp at hpos; exact ⟨w, rfl, hpos⟩

theorem weights_reached {ws : List Int} {d : WeightIdx} (h : weightsNew ws = .ok d) {i : Nat} {w : Int} (hi : ws[i]? = some w) (hw : 0 < w) :
    ∃ x, x < d.total ∧ d.pick x = i := by
  have hc := C163_share h i
  rw [List.getD_eq_getElem?_getD, hi] at hc
  have hpos : 0 < ((List.range d.total).filter fun y => decide (d.pick y = i)).length := by rw [hc]; simp; omega
  obtain ⟨x, hx⟩ := List.exists_mem_of_length_pos hpos
  obtain ⟨hx, hp⟩ := List.mem_filter.mp hx
  exact ⟨x, List.mem_range.mp hx, by simpa using hp⟩

theorem weights_total {ws : List Int} {d : WeightIdx} (h : weightsNew ws = .ok d) : 0 < d.total := by
  cases ws with
  | nil => cases h
  | cons w ws =>
    simp only [weightsNew] at h
    split at h
    · cases h
    · split at h
      · cases h
      · split at h
        · cases h
        · cases h; omega

theorem csvRows_ok : ∀ {rows : List (Option α)} {l : List α}, csvRows rows = .ok l → rows = l.map some
  | [], l, h => by simp only [csvRows, Except.ok.injEq] at h; subst h; rfl
  | none :: _, l, h => by simp [csvRows] at h
  | some r :: rs, l, h => by
    simp only [csvRows] at h
    split at h
    · cases h
    · next l' hl => cases h; rw [csvRows_ok hl]; rfl

theorem weightsOf_ok {ws : List Int} {d : WeightIdx} (h : weightsOf ws = .ok d) : weightsNew ws = .ok d := by
  unfold weightsOf at h
  split at h
  · cases h
  · next hd => cases h; exact hd

/-- What `peopleNew` has made, once it has made it. -/
theorem peopleNew_ok {places : List (Option PlaceRow)} {gadgets : List (Option GadgetRow)} {firms : List Firm} {p : People}
    (h : peopleNew places gadgets firms = .ok p) : ∃ (ps : List PlaceRow) (gs : List GadgetRow), places = ps.map some ∧ gadgets = gs.map some ∧
      weightsNew (ps.map (·.weight)) = .ok p.placeIdx ∧ weightsNew (gs.map (·.weight)) = .ok p.gadgetIdx ∧
      p.places = ps.map (fun r => ⟨r.country, r.city⟩) ∧ p.gadgets = gs.map (fun r => ⟨r.device, r.category, r.os, r.osVersion⟩) ∧ p.firms = firms := by
  unfold peopleNew at h
  cases h1 : csvRows places with
  | error e => rw [h1] at h; cases h
  | ok ps =>
    cases h2 : csvRows gadgets with
    | error e => rw [h1, h2] at h; cases h
    | ok gs =>
      cases h3 : weightsOf (ps.map (·.weight)) with
      | error e => simp only [h1, h2, bind, Except.bind, h3] at h; cases h
      | ok pi =>
        cases h4 : weightsOf (gs.map (·.weight)) with
        | error e => simp only [h1, h2, bind, Except.bind, h3, h4] at h; cases h
        | ok gi =>
          simp only [h1, h2, bind, Except.bind, h3, h4, pure, Except.pure, Except.ok.injEq] at h
          subst h
          exact ⟨ps, gs, csvRows_ok h1, csvRows_ok h2, weightsOf_ok h3, weightsOf_ok h4, rfl, rfl, rfl⟩

/-- **C163** (partial: there has to be a company): once the files are read, drawing a person never panics, and the person's place, device and company are each of
one row of the files, with a positive weight; people are 18 to 49 years old and belong to one of ten projects. -/
theorem C163_people_partial {places : List (Option PlaceRow)} {gadgets : List (Option GadgetRow)} {firms : List Firm} {p : People}
    (h : peopleNew places gadgets firms = .ok p) (hf : firms ≠ []) (d : PersonDraw) : ∃ q, p.sample d = some q ∧
      (∃ r, some r ∈ places ∧ 0 < r.weight ∧ q.place = ⟨r.country, r.city⟩) ∧
      (∃ r, some r ∈ gadgets ∧ 0 < r.weight ∧ q.gadget = ⟨r.device, r.category, r.os, r.osVersion⟩) ∧
      q.firm ∈ firms ∧ 18 ≤ q.age ∧ q.age < 50 ∧ 1 ≤ q.project ∧ q.project ≤ 10 := by
  obtain ⟨ps, gs, rfl, rfl, hpi, hgi, hp, hg, hfi⟩ := peopleNew_ok h
  obtain ⟨w, hw, hwp⟩ := weights_picked hpi (Nat.mod_lt d.place (weights_total hpi))
  obtain ⟨v, hv, hvp⟩ := weights_picked hgi (Nat.mod_lt d.gadget (weights_total hgi))
  rw [List.getElem?_map, Option.map_eq_some_iff] at hw hv
  obtain ⟨r, hr, rfl⟩ := hw
  obtain ⟨g, hgr, rfl⟩ := hv
  have hlen : d.firm % firms.length < firms.length := Nat.mod_lt _ (List.length_pos_iff.mpr hf)
  refine ⟨⟨⟨r.country, r.city⟩, ⟨g.device, g.category, g.os, g.osVersion⟩, 18 + d.age % 32, firms[d.firm % firms.length], 1 + d.project % 10⟩, ?_,
    ⟨r, List.mem_map_of_mem (List.mem_of_getElem? hr), hwp, rfl⟩, ⟨g, List.mem_map_of_mem (List.mem_of_getElem? hgr), hvp, rfl⟩,
    List.getElem_mem _, by simp, by simp only; omega, by simp, by simp only; omega⟩
  simp only [People.sample, hp, hg, hfi, List.getElem?_map, hr, hgr, Option.map_some, bind, Option.bind, List.getElem?_eq_getElem hlen, pure]

/-- **C163**: every place and every device with a positive weight, every company, every age from 18 to 49 and every project is drawn by some person, in all
combinations. -/
theorem C163_everybody {places : List (Option PlaceRow)} {gadgets : List (Option GadgetRow)} {firms : List Firm} {p : People}
    (h : peopleNew places gadgets firms = .ok p) {r : PlaceRow} (hr : some r ∈ places) (hrw : 0 < r.weight)
    {g : GadgetRow} (hg : some g ∈ gadgets) (hgw : 0 < g.weight) {f : Firm} (hf : f ∈ firms) {a n : Nat} (ha : 18 ≤ a ∧ a < 50) (hn : 1 ≤ n ∧ n ≤ 10) :
    ∃ d, p.sample d = some ⟨⟨r.country, r.city⟩, ⟨g.device, g.category, g.os, g.osVersion⟩, a, f, n⟩ := by
  obtain ⟨ps, gs, rfl, rfl, hpi, hgi, hp, hgd, hfi⟩ := peopleNew_ok h
  simp only [List.mem_map, Option.some.injEq, exists_eq_right] at hr hg
  obtain ⟨i, hi⟩ := List.mem_iff_getElem?.mp hr
  obtain ⟨j, hj⟩ := List.mem_iff_getElem?.mp hg
  obtain ⟨k, hk, hkf⟩ := List.mem_iff_getElem.mp hf
  obtain ⟨x, hx, hxi⟩ := weights_reached hpi (i := i) (w := r.weight) (by rw [List.getElem?_map, hi]; rfl) hrw
  obtain ⟨y, hy, hyj⟩ := weights_reached hgi (i := j) (w := g.weight) (by rw [List.getElem?_map, hj]; rfl) hgw
  refine ⟨⟨x, y, a - 18, k, n - 1⟩, ?_⟩
  have e1 : 18 + (a - 18) % 32 = a := by omega
  have e2 : 1 + (n - 1) % 10 = n := by omega
  simp only [People.sample, hp, hgd, hfi, Nat.mod_eq_of_lt hx, Nat.mod_eq_of_lt hy, Nat.mod_eq_of_lt hk, hxi, hyj, List.getElem?_map, hi, hj,
    Option.map_some, bind, Option.bind, List.getElem?_eq_getElem hk, hkf, pure, e1, e2]

/-- **C163**: the companies are those of the file, whatever they are shuffled into. -/
theorem C163_firms {shuffle : List Firm → List Firm} (hs : ∀ l, (shuffle l).Perm l) {rows : List (Option Firm)} {l : List Firm}
    (h : firmsNew shuffle rows = .ok l) (f : Firm) : f ∈ l ↔ some f ∈ rows := by
  unfold firmsNew at h
  split at h
  · cases h
  · next l' hl =>
    cases h
    rw [csvRows_ok hl, (hs l').mem_iff]
    simp

/-- **C163**: a row that cannot be read, in any of the files, ends the reading with an error. -/
theorem C163_refused (places : List (Option PlaceRow)) (gadgets : List (Option GadgetRow)) (firms : List Firm) (shuffle : List Firm → List Firm)
    (rows : List (Option Firm)) :
    (none ∈ places ∨ none ∈ gadgets → ∀ p, peopleNew places gadgets firms ≠ .ok p) ∧ (none ∈ rows → ∀ l, firmsNew shuffle rows ≠ .ok l) := by
  constructor
  · intro hn p h
    obtain ⟨ps, gs, rfl, rfl, _⟩ := peopleNew_ok h
    simp at hn
  · intro hn l h
    unfold firmsNew at h
    split at h
    · cases h
    · next l' hl => rw [csvRows_ok hl] at hn; simp at hn

theorem csvRows_some : ∀ l : List α, csvRows (l.map some) = .ok l
  | [] => rfl
  | r :: l => by simp only [List.map_cons, csvRows, csvRows_some l]

/-- The weights of a file: none is negative, their sum is positive and an `i32`. -/
structure WeightsFit (ws : List Int) : Prop where
  nonneg : ∀ w ∈ ws, 0 ≤ w
  some : ∃ w ∈ ws, 0 < w
  small : (ws.map Int.toNat).sum < 2 ^ 31

theorem sum_pos_iff : ∀ ws : List Int, 0 < (ws.map Int.toNat).sum ↔ ∃ w ∈ ws, 0 < w
  | [] => by simp
  | w :: ws => by
    have ih := sum_pos_iff ws
    simp only [List.map_cons, List.sum_cons, List.mem_cons, exists_eq_or_imp, ← ih]
    omega

theorem weightsOf_iff {ws : List Int} (h32 : ∀ w ∈ ws, w < 2 ^ 31) : (∃ d, weightsOf ws = .ok d) ↔ WeightsFit ws := by
  have h := C163_weights h32
  rw [sum_pos_iff] at h
  constructor
  · rintro ⟨d, hd⟩
    obtain ⟨h1, h2, h3⟩ := h.mp ⟨d, weightsOf_ok hd⟩
    exact ⟨h1, h2, h3⟩
  · rintro ⟨h1, h2, h3⟩
    obtain ⟨d, hd⟩ := h.mpr ⟨h1, h2, h3⟩
    exact ⟨d, by unfold weightsOf; rw [hd]⟩

/-- **C163**: the files of places and devices, with weights that are `i32`, are accepted exactly if all rows can be read and the weights of both are not negative,
not all zero and have a sum that is an `i32`; the companies do not matter. -/
theorem C163_accepted {places : List (Option PlaceRow)} {gadgets : List (Option GadgetRow)} {firms : List Firm}
    (hp32 : ∀ r, some r ∈ places → r.weight < 2 ^ 31) (hg32 : ∀ r, some r ∈ gadgets → r.weight < 2 ^ 31) :
    (∃ p, peopleNew places gadgets firms = .ok p) ↔
      ∃ (ps : List PlaceRow) (gs : List GadgetRow), places = ps.map some ∧ gadgets = gs.map some ∧
        WeightsFit (ps.map (·.weight)) ∧ WeightsFit (gs.map (·.weight)) := by
  have h32 : ∀ ps : List PlaceRow, places = ps.map some → ∀ w ∈ ps.map (·.weight), w < 2 ^ 31 := by
    intro ps e w hw
    obtain ⟨r, hr, rfl⟩ := List.mem_map.mp hw
    exact hp32 r (by rw [e]; exact List.mem_map_of_mem hr)
  have k32 : ∀ gs : List GadgetRow, gadgets = gs.map some → ∀ w ∈ gs.map (·.weight), w < 2 ^ 31 := by
    intro gs e w hw
    obtain ⟨r, hr, rfl⟩ := List.mem_map.mp hw
    exact hg32 r (by rw [e]; exact List.mem_map_of_mem hr)
  constructor
  · rintro ⟨p, h⟩
    obtain ⟨ps, gs, e1, e2, hpi, hgi, _⟩ := peopleNew_ok h
    refine ⟨ps, gs, e1, e2, (weightsOf_iff (h32 ps e1)).mp ⟨p.placeIdx, ?_⟩, (weightsOf_iff (k32 gs e2)).mp ⟨p.gadgetIdx, ?_⟩⟩
    · unfold weightsOf; rw [hpi]
    · unfold weightsOf; rw [hgi]
  · rintro ⟨ps, gs, e1, e2, h1, h2⟩
    obtain ⟨pi, hpi⟩ := (weightsOf_iff (h32 ps e1)).mpr h1
    obtain ⟨gi, hgi⟩ := (weightsOf_iff (k32 gs e2)).mpr h2
    unfold peopleNew
    rw [e1, e2, csvRows_some, csvRows_some]
    simp only [bind, Except.bind, hpi, hgi, pure, Except.pure]
    exact ⟨_, rfl⟩

/-- Two places, one of which has no weight, one device and one company. -/
def demoPlaces : List (Option PlaceRow) := [some ⟨some 1, some 10, 0⟩, some ⟨some 2, none, 3⟩]
def demoGadgets : List (Option GadgetRow) := [some ⟨some 5, some 6, some 7, none, 1⟩]
def demoFirm : Firm := ⟨9, 100, 12⟩

example : (match peopleNew demoPlaces demoGadgets [demoFirm] with | .error _ => none | .ok p => p.sample ⟨7, 7, 33, 4, 19⟩) =
    some ⟨⟨some 2, none⟩, ⟨some 5, some 6, some 7, none⟩, 19, demoFirm, 10⟩ := by decide

/-- **C163**, violated: a file without companies is accepted, unlike one without places or devices, and then drawing anybody is a panic. -/
theorem C163_firms_violated : firmsNew id [] = .ok [] ∧
    (∃ p, peopleNew demoPlaces demoGadgets [] = .ok p ∧ ∀ d, p.sample d = none) ∧
    peopleNew [] demoGadgets [] = .error (.weights .noItem) ∧ peopleNew demoPlaces [] [] = .error (.weights .noItem) := by
  refine ⟨rfl, ?_, rfl, rfl⟩
  refine ⟨⟨[⟨some 1, some 10⟩, ⟨some 2, none⟩], ⟨[0], 3⟩, [⟨some 5, some 6, some 7, none⟩], ⟨[], 1⟩, []⟩, rfl, fun d => ?_⟩
  simp [People.sample]

end OptiPrism.Ingest
