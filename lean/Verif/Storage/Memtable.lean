import Verif.Storage.Value

/-!
# Unflushed data: the memtable

Model of /repo/src/storage/src/memtable.rs. A memtable is a list of columns, each with its own
vector of values; nothing in the data structure forces the columns to have equal length.
The block builder `chunk` (122-204) is modelled in `Verif.Storage.Chunk`.
-/

namespace OptiPrism.Storage

/-- Column types: the non-list part of `DType`, /repo/src/common/src/types.rs 126-137
(`TryFrom<DType> for DataType2`, 220-253, maps list types to their element type). -/
inductive ColType where
  | string | int8 | int16 | int32 | int64 | decimal | boolean | timestamp
  deriving DecidableEq, Repr

abbrev Row := List Value

/-- /repo/src/storage/src/memtable.rs 35-39. -/
structure Column where
  values : List Value
  dt : ColType
  deriving DecidableEq, Repr

/-- /repo/src/storage/src/memtable.rs 270-273. -/
structure Memtable where
  cols : List Column
  deriving DecidableEq, Repr

namespace Memtable

/-- `Memtable::new`, 119-121. -/
def new : Memtable := ⟨[]⟩

/-- `Memtable::len`, 244-249: the length of the first column. -/
def len (m : Memtable) : Nat :=
  match m.cols with
  | [] => 0
  | c :: _ => c.values.length

/-- `Column::new_null`, 42-47. -/
def nullColumn (n : Nat) (dt : ColType) : Column := ⟨List.replicate n .null, dt⟩

/-- `Memtable::add_column`, 255-257. -/
def addColumn (m : Memtable) (dt : ColType) : Memtable :=
  ⟨m.cols ++ [nullColumn m.len dt]⟩

/-- `Memtable::create_empty`, 259-267. -/
def createEmpty (m : Memtable) : Memtable :=
  ⟨m.cols.map fun c => nullColumn 0 c.dt⟩

/-- `Memtable::push_value`, 206-208; `none` is the index-out-of-bounds panic. -/
def pushValue (m : Memtable) (col : Nat) (v : Value) : Option Memtable :=
  match m.cols[col]? with
  | none => none
  | some c => some ⟨m.cols.set col { c with values := c.values ++ [v] }⟩

/-- The loop `for (idx, val) in vals.enumerate() { push_value(base + idx, val) }`
(db.rs 272-274, 775-780). -/
def pushFrom (m : Memtable) (base : Nat) : List Value → Option Memtable
  | [] => some m
  | v :: vs =>
    match m.pushValue base v with
    | none => none
    | some m' => m'.pushFrom (base + 1) vs

/-- Inner loop of `get`, 219-226: does row `idx` agree with the key on its leading columns?
`none` is an out-of-bounds panic. -/
def matchKey (m : Memtable) (idx : Nat) : Nat → List Value → Option Bool
  | _, [] => some true
  | kid, k :: ks =>
    match m.cols[kid]? with
    | none => none
    | some c =>
      match c.values[idx]? with
      | none => none
      | some v => if v = k then m.matchKey idx (kid + 1) ks else some false

/-- Outer loop of `get`, 218-231: the last matching index among `idx .. idx+n`. -/
def findLast (m : Memtable) (key : List Value) : Nat → Nat → Option Nat → Option (Option Nat)
  | _, 0, acc => some acc
  | idx, n + 1, acc =>
    match m.matchKey idx 0 key with
    | none => none
    | some true => m.findLast key (idx + 1) n (some idx)
    | some false => m.findLast key (idx + 1) n acc

/-- Row `idx`, as collected in 234-238; `none` is an out-of-bounds panic. -/
def rowAt (m : Memtable) (idx : Nat) : Option Row :=
  m.cols.mapM fun c => c.values[idx]?

/-- `Memtable::get`, 216-243. Outer `none` = panic. -/
def get (m : Memtable) (key : List KeyValue) : Option (Option Row) :=
  match m.findLast (key.map KeyValue.toValue) 0 m.len none with
  | none => none
  | some none => some none
  | some (some idx) =>
    match m.rowAt idx with
    | none => none
    | some r => some (some r)

/-- All rows in insertion order; `none` if the columns are ragged (a reader would panic). -/
def rows (m : Memtable) : Option (List Row) :=
  if m.cols.all (fun c => c.values.length == m.len) then
    (List.range m.len).mapM m.rowAt
  else none

/-! ### Abstraction: a memtable represents a list of rows -/

/-- `m` represents `rs`: every row has one cell per column, and column `j` at position `i` is
cell `j` of row `i`. -/
structure Rep (m : Memtable) (rs : List Row) : Prop where
  width : ∀ r ∈ rs, r.length = m.cols.length
  nocols : m.cols = [] → rs = []
  cells : ∀ (j : Nat) (c : Column), m.cols[j]? = some c →
    c.values = rs.map fun r => r[j]?.getD .null

theorem rep_new : Rep new [] := ⟨by simp, by simp, by simp [new]⟩

theorem Rep.len {m : Memtable} {rs : List Row} (h : Rep m rs) : m.len = rs.length := by
  unfold Memtable.len
  cases hc : m.cols with
  | nil => simp [h.nocols hc]
  | cons c cs =>
    have := h.cells 0 c (by simp [hc])
    simp [this]

theorem Rep.colLen {m : Memtable} {rs : List Row} (h : Rep m rs) {j : Nat} {c : Column}
    (hc : m.cols[j]? = some c) : c.values.length = rs.length := by
  rw [h.cells j c hc]; simp

theorem Rep.cell {m : Memtable} {rs : List Row} (h : Rep m rs) {j i : Nat} {c : Column} {r : Row}
    (hc : m.cols[j]? = some c) (hr : rs[i]? = some r) : c.values[i]? = r[j]? := by
  rw [h.cells j c hc]
  have hj : j < r.length := by
    rw [h.width r (List.mem_of_getElem? hr)]
    exact (List.getElem?_eq_some_iff.mp hc).1
  simp [hr, hj]

theorem Rep.rowAt {m : Memtable} {rs : List Row} (h : Rep m rs) {i : Nat} {r : Row}
    (hr : rs[i]? = some r) : m.rowAt i = some r := by
  unfold Memtable.rowAt
  have hw := h.width r (List.mem_of_getElem? hr)
  have key : ∀ (cs : List Column) (r' : Row), cs.length = r'.length →
      (∀ (j : Nat) (c : Column), cs[j]? = some c → c.values[i]? = r'[j]?) →
      cs.mapM (fun c => c.values[i]?) = some r' := by
    intro cs
    induction cs with
    | nil => intro r' hl _; cases r' with
      | nil => rfl
      | cons _ _ => simp at hl
    | cons c cs ih =>
      intro r' hl hcell
      cases r' with
      | nil => simp at hl
      | cons v vs =>
        have h0 := hcell 0 c (by simp)
        have h1 := ih vs (by simpa using hl) (fun j c' hc' => by
          simpa using hcell (j + 1) c' (by simpa using hc'))
        simp only [List.getElem?_cons_zero] at h0
        simp [List.mapM_cons, h0, h1]
  exact key m.cols r hw.symm (fun j c hc => h.cell hc hr)

theorem mapM_range_eq_some {α : Type} (f : Nat → Option α) (l : List α)
    (h : ∀ i a, l[i]? = some a → f i = some a) : (List.range l.length).mapM f = some l := by
  induction l generalizing f with
  | nil => rfl
  | cons a l ih =>
    have h0 := h 0 a (by simp)
    have h1 := ih (fun i => f (i + 1)) (fun i b hb => h (i + 1) b (by simpa using hb))
    rw [List.length_cons, List.range_succ_eq_map, List.mapM_cons, List.mapM_map]
    simp only [Function.comp_def]
    simp [h0, h1]

theorem Rep.rows {m : Memtable} {rs : List Row} (h : Rep m rs) : m.rows = some rs := by
  unfold Memtable.rows
  have h1 : m.cols.all (fun c => c.values.length == m.len) = true := by
    simp only [List.all_eq_true, beq_iff_eq]
    intro c hc
    obtain ⟨j, hj⟩ := List.getElem?_of_mem hc
    rw [h.colLen hj, h.len]
  rw [if_pos h1, h.len]
  exact mapM_range_eq_some _ _ (fun i a ha => h.rowAt ha)

/-! ### pushing a full row -/

theorem pushFrom_spec (m : Memtable) (base : Nat) (vs : List Value)
    (hb : base + vs.length ≤ m.cols.length) :
    ∃ m', m.pushFrom base vs = some m' ∧ m'.cols.length = m.cols.length ∧
      ∀ j c, m.cols[j]? = some c →
        m'.cols[j]? = some (if h : base ≤ j ∧ j < base + vs.length
          then { c with values := c.values ++ [vs[j - base]'(by omega)] } else c) := by
  induction vs generalizing m base with
  | nil => exact ⟨m, rfl, rfl, fun j c hc => by
      have : ¬ (base ≤ j ∧ j < base + ([] : List Value).length) := by simp
      rw [dif_neg this, hc]⟩
  | cons v vs ih =>
    simp only [List.length_cons] at hb
    have hlt : base < m.cols.length := by omega
    have hget : m.cols[base]? = some m.cols[base] := List.getElem?_eq_getElem hlt
    let m1 : Memtable := ⟨m.cols.set base { m.cols[base] with values := m.cols[base].values ++ [v] }⟩
    have hp : m.pushValue base v = some m1 := by simp [pushValue, hget, m1]
    have hl1 : m1.cols.length = m.cols.length := by simp [m1]
    obtain ⟨m', h1, h2, h3⟩ := ih m1 (base + 1) (by omega)
    refine ⟨m', by simp [pushFrom, hp, h1], by omega, ?_⟩
    intro j c hc
    have hjlt : j < m.cols.length := (List.getElem?_eq_some_iff.mp hc).1
    have hcj : m.cols[j] = c := (List.getElem?_eq_some_iff.mp hc).2
    by_cases hj : j = base
    · subst hj
      have hm1 : m1.cols[j]? = some { c with values := c.values ++ [v] } := by
        simp [m1, hjlt, hcj]
      rw [h3 j _ hm1]
      have e1 : ¬ (j + 1 ≤ j ∧ j < j + 1 + vs.length) := by omega
      have e2 : j ≤ j ∧ j < j + (v :: vs).length := by simp
      rw [dif_neg e1, dif_pos e2]
      simp
    · have hm1 : m1.cols[j]? = some c := by
        simp only [m1]
        rw [List.getElem?_set_ne (Ne.symm hj)]
        exact hc
      rw [h3 j c hm1]
      by_cases e : base + 1 ≤ j ∧ j < base + 1 + vs.length
      · have e2 : base ≤ j ∧ j < base + (v :: vs).length := by simp; omega
        rw [dif_pos e, dif_pos e2]
        have : j - base = (j - (base + 1)) + 1 := by omega
        simp [this]
      · have e2 : ¬ (base ≤ j ∧ j < base + (v :: vs).length) := by simp; omega
        rw [dif_neg e, dif_neg e2]

/-- Pushing one value per column appends exactly that row. -/
theorem Rep.push {m : Memtable} {rs : List Row} (h : Rep m rs) (r : Row)
    (hr : r.length = m.cols.length) (hne : m.cols ≠ []) :
    ∃ m', m.pushFrom 0 r = some m' ∧ m'.cols.length = m.cols.length ∧ Rep m' (rs ++ [r]) ∧
      m'.cols.map Column.dt = m.cols.map Column.dt := by
  obtain ⟨m', h1, h2, h3⟩ := pushFrom_spec m 0 r (by omega)
  have hcol : ∀ j (hj : j < m.cols.length),
      m'.cols[j]? = some { m.cols[j] with values := m.cols[j].values ++ [r[j]'(by omega)] } := by
    intro j hj
    rw [h3 j _ (List.getElem?_eq_getElem hj)]
    have : 0 ≤ j ∧ j < 0 + r.length := by omega
    simp [show j < r.length by omega]
  refine ⟨m', h1, h2, ⟨?_, ?_, ?_⟩, ?_⟩
  · intro x hx
    simp only [List.mem_append, List.mem_singleton] at hx
    rcases hx with hx | hx
    · rw [h.width x hx, h2]
    · rw [hx, hr, h2]
  · intro hnil
    rw [hnil] at h2
    exact absurd (List.eq_nil_of_length_eq_zero h2.symm) hne
  · intro j c hc
    have hj : j < m.cols.length := by
      have := (List.getElem?_eq_some_iff.mp hc).1
      omega
    rw [hcol j hj] at hc
    have hc' := Option.some.inj hc
    subst hc'
    have := h.cells j _ (List.getElem?_eq_getElem hj)
    simp only [List.map_append, List.map_cons, List.map_nil, ← this]
    simp [show j < r.length by omega]
  · apply List.ext_getElem?
    intro j
    simp only [List.getElem?_map]
    by_cases hj : j < m.cols.length
    · rw [hcol j hj, List.getElem?_eq_getElem hj]; rfl
    · rw [List.getElem?_eq_none (by omega), List.getElem?_eq_none (by omega)]

/-! ### adding a column -/

theorem Rep.addColumn {m : Memtable} {rs : List Row} (h : Rep m rs) (dt : ColType) :
    Rep (m.addColumn dt) (rs.map fun r => r ++ [.null]) := by
  refine ⟨?_, ?_, ?_⟩
  · intro r hr
    simp only [List.mem_map] at hr
    obtain ⟨r', hr', rfl⟩ := hr
    simp [Memtable.addColumn, h.width r' hr']
  · simp [Memtable.addColumn]
  · intro j c hc
    simp only [Memtable.addColumn] at hc
    by_cases hj : j < m.cols.length
    · rw [List.getElem?_append_left hj] at hc
      rw [h.cells j c hc, List.map_map]
      apply List.map_congr_left
      intro r hr
      have := h.width r hr
      simp [List.getElem?_append, show j < r.length by omega]
    · have hj' : j = m.cols.length := by
        have := (List.getElem?_eq_some_iff.mp hc).1
        simp at this; omega
      subst hj'
      simp at hc
      subst hc
      simp only [nullColumn, List.map_map, h.len]
      symm
      apply List.eq_replicate_iff.mpr
      refine ⟨by simp, ?_⟩
      intro b hb
      simp only [List.mem_map, Function.comp_def] at hb
      obtain ⟨r, hr, rfl⟩ := hb
      simp [← h.width r hr]

theorem rep_createEmpty (m : Memtable) : Rep m.createEmpty [] := by
  refine ⟨by simp, by simp, ?_⟩
  intro j c hc
  simp only [createEmpty, List.getElem?_map, Option.map_eq_some_iff] at hc
  obtain ⟨c', _, rfl⟩ := hc
  simp [nullColumn]

/-! ### `get` -/

/-- Spec: the row's leading cells equal the key. -/
def KeyPrefix (key : List KeyValue) (r : Row) : Prop :=
  key.map KeyValue.toValue <+: r

instance (key : List KeyValue) (r : Row) : Decidable (KeyPrefix key r) :=
  inferInstanceAs (Decidable (_ <+: _))

theorem Rep.matchKey {m : Memtable} {rs : List Row} (h : Rep m rs) {i : Nat} {r : Row}
    (hr : rs[i]? = some r) (kid : Nat) (ks : List Value) (hk : kid + ks.length ≤ m.cols.length) :
    m.matchKey i kid ks = some (decide (ks <+: r.drop kid)) := by
  have hw := h.width r (List.mem_of_getElem? hr)
  induction ks generalizing kid with
  | nil => simp [Memtable.matchKey]
  | cons k ks ih =>
    simp only [List.length_cons] at hk
    have hlt : kid < m.cols.length := by omega
    have hget := List.getElem?_eq_getElem hlt
    have hrl : kid < r.length := by omega
    have hcell : m.cols[kid].values[i]? = some r[kid] := by
      rw [h.cell hget hr, List.getElem?_eq_getElem hrl]
    have hdrop : r.drop kid = r[kid] :: r.drop (kid + 1) := by
      exact List.drop_eq_getElem_cons hrl
    simp only [Memtable.matchKey, hget, hcell]
    rw [hdrop]
    by_cases he : r[kid] = k
    · rw [if_pos he, ih (kid + 1) (by omega)]
      simp [List.cons_prefix_cons, he]
    · rw [if_neg he]
      have : ¬ (k :: ks <+: r[kid] :: r.drop (kid + 1)) := by
        rw [List.cons_prefix_cons]
        exact fun hh => he hh.1.symm
      rw [decide_eq_false this]

theorem Rep.findLast {m : Memtable} {rs : List Row} (h : Rep m rs) (key : List KeyValue)
    (hk : key.length ≤ m.cols.length) (idx n : Nat) (acc : Option Nat)
    (hn : idx + n = rs.length) :
    ∃ res, m.findLast (key.map KeyValue.toValue) idx n acc = some res ∧
      ((∃ i r, idx ≤ i ∧ rs[i]? = some r ∧ KeyPrefix key r ∧ res = some i ∧
          ∀ i' r', i < i' → rs[i']? = some r' → ¬ KeyPrefix key r') ∨
       ((∀ i r, idx ≤ i → rs[i]? = some r → ¬ KeyPrefix key r) ∧ res = acc)) := by
  induction n generalizing idx acc with
  | zero =>
    refine ⟨acc, rfl, Or.inr ⟨?_, rfl⟩⟩
    intro i r hi hr
    have := (List.getElem?_eq_some_iff.mp hr).1
    omega
  | succ n ih =>
    have hlt : idx < rs.length := by omega
    have hr := List.getElem?_eq_getElem hlt
    have hm := h.matchKey hr 0 (key.map KeyValue.toValue) (by simpa using hk)
    simp only [List.drop_zero] at hm
    by_cases hp : KeyPrefix key rs[idx]
    · have hm' : m.matchKey idx 0 (key.map KeyValue.toValue) = some true := by
        rw [hm]; simpa [KeyPrefix] using hp
      obtain ⟨res, h1, h2⟩ := ih (idx + 1) (some idx) (by omega)
      refine ⟨res, by simp [Memtable.findLast, hm', h1], ?_⟩
      rcases h2 with ⟨i, r, hi, hr', hp', hres, hlast⟩ | ⟨hnone, hres⟩
      · exact Or.inl ⟨i, r, by omega, hr', hp', hres, hlast⟩
      · exact Or.inl ⟨idx, _, by omega, hr, hp, hres, fun i' r' hi' hr' =>
          hnone i' r' (by omega) hr'⟩
    · have hm' : m.matchKey idx 0 (key.map KeyValue.toValue) = some false := by
        rw [hm]; simpa [KeyPrefix] using hp
      obtain ⟨res, h1, h2⟩ := ih (idx + 1) acc (by omega)
      refine ⟨res, by simp [Memtable.findLast, hm', h1], ?_⟩
      rcases h2 with ⟨i, r, hi, hr', hp', hres, hlast⟩ | ⟨hnone, hres⟩
      · exact Or.inl ⟨i, r, by omega, hr', hp', hres, hlast⟩
      · refine Or.inr ⟨?_, hres⟩
        intro i r hi hr'
        by_cases hi' : i = idx
        · subst hi'
          rw [hr] at hr'
          have := Option.some.inj hr'
          subst this; exact hp
        · exact hnone i r (by omega) hr'

end Memtable
end OptiPrism.Storage
