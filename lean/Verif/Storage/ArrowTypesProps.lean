import Verif.Storage.ArrowTypes

/-!
# C158: a column has one type, in whatever notation
-/

namespace OptiPrism.Storage

open OptiPrism.Meta (Str DType)

/-! ## Spec -/

mutual
/-- Spec: the type of arrow2 that is meant by one of arrow. -/
def Type1.meant : Type1 → Type2
  | .plain t => .plain t
  | .timestamp u tz => .timestamp u tz
  | .time32 u => .time32 u
  | .time64 u => .time64 u
  | .duration u => .duration u
  | .interval u => .interval u
  | .fixedSizeBinary n => .fixedSizeBinary n.toInt.toNat
  | .list f => .list f.meant
  | .fixedSizeList f n => .fixedSizeList f.meant n.toInt.toNat
  | .largeList f => .largeList f.meant
  | .struct fs => .struct fs.meant
  | .decimal128 p s => .decimal p.toNat s.toInt.toNat
  | .decimal256 p s => .decimal256 p.toNat s.toInt.toNat
def Field1.meant : Field1 → Field2
  | .mk name t nullable => .mk name t.meant nullable
def Fields1.meant : Fields1 → Fields2
  | .nil => .nil
  | .cons f fs => .cons f.meant fs.meant
end

mutual
/-- Spec: sizes fit into 31 bits, precisions into 8, scales into 7. -/
def Type2.Sized : Type2 → Prop
  | .fixedSizeBinary n => n < 2 ^ 31
  | .list f => f.Sized
  | .fixedSizeList f n => f.Sized ∧ n < 2 ^ 31
  | .largeList f => f.Sized
  | .struct fs => fs.Sized
  | .decimal p s => p < 256 ∧ s < 128
  | .decimal256 p s => p < 256 ∧ s < 128
  | _ => True
def Field2.Sized : Field2 → Prop
  | .mk _ t _ => t.Sized
def Fields2.Sized : Fields2 → Prop
  | .nil => True
  | .cons f fs => f.Sized ∧ fs.Sized
end

mutual
/-- Spec: somewhere in the type is a union, a map, a dictionary or an extension. -/
def Type2.Foreign : Type2 → Prop
  | .union | .map | .dictionary | .extension => True
  | .list f => f.Foreign
  | .fixedSizeList f _ => f.Foreign
  | .largeList f => f.Foreign
  | .struct fs => fs.Foreign
  | _ => False
def Field2.Foreign : Field2 → Prop
  | .mk _ t _ => t.Foreign
def Fields2.Foreign : Fields2 → Prop
  | .nil => False
  | .cons f fs => f.Foreign ∨ fs.Foreign
end

/-- The fields of a schema as a list. -/
def Fields2.toList : Fields2 → List Field2
  | .nil => []
  | .cons f fs => f :: fs.toList

def Fields1.toList : Fields1 → List Field1
  | .nil => []
  | .cons f fs => f :: fs.toList

/-- C158 as stated: a type of the store is read from its notations as itself. -/
def C158_full : Prop := ∀ d : DType, (dtypeTo2 d).bind dtypeOf2 = some d ∧ (dtypeTo1 d).bind dtypeOf1 = some d

/-! ## From arrow2 to arrow -/

theorem toInt_ofNat32 {n : Nat} (h : n < 2 ^ 31) : (BitVec.ofNat 32 n).toInt.toNat = n := by
  rw [BitVec.toInt_eq_toNat_cond, BitVec.toNat_ofNat, Nat.mod_eq_of_lt (by omega), if_pos (by omega)]
  omega

theorem toInt_ofNat8 {n : Nat} (h : n < 128) : (BitVec.ofNat 8 n).toInt.toNat = n := by
  rw [BitVec.toInt_eq_toNat_cond, BitVec.toNat_ofNat, Nat.mod_eq_of_lt (by omega), if_pos (by omega)]
  omega

theorem toNat_ofNat8 {n : Nat} (h : n < 256) : (BitVec.ofNat 8 n).toNat = n := by
  rw [BitVec.toNat_ofNat, Nat.mod_eq_of_lt (by omega)]

mutual
/-- A type that arrow can size means the same in arrow. -/
theorem C158_meant : ∀ (t : Type2) {u : Type1}, t.Sized → type1 t = some u → u.meant = t
  | .plain t, u, _, h => by cases h; cases t <;> rfl
  | .timestamp k _, u, _, h => by cases h; cases k <;> rfl
  | .time32 k, u, _, h => by cases h; cases k <;> rfl
  | .time64 k, u, _, h => by cases h; cases k <;> rfl
  | .duration k, u, _, h => by cases h; cases k <;> rfl
  | .interval k, u, _, h => by cases h; cases k <;> rfl
  | .fixedSizeBinary n, u, hs, h => by
    cases h
    simp only [Type1.meant, toInt_ofNat32 hs]
  | .list f, u, hs, h => by
    simp only [type1, Option.map_eq_some_iff] at h
    obtain ⟨g, hg, rfl⟩ := h
    simp only [Type1.meant, field_meant f hs hg]
  | .fixedSizeList f n, u, hs, h => by
    simp only [type1, Option.map_eq_some_iff] at h
    obtain ⟨g, hg, rfl⟩ := h
    simp only [Type1.meant, field_meant f hs.1 hg, toInt_ofNat32 hs.2]
  | .largeList f, u, hs, h => by
    simp only [type1, Option.map_eq_some_iff] at h
    obtain ⟨g, hg, rfl⟩ := h
    simp only [Type1.meant, field_meant f hs hg]
  | .struct fs, u, hs, h => by
    simp only [type1, Option.map_eq_some_iff] at h
    obtain ⟨g, hg, rfl⟩ := h
    simp only [Type1.meant, C158_schema_meant fs hs hg]
  | .union, _, _, h => by cases h
  | .map, _, _, h => by cases h
  | .dictionary, _, _, h => by cases h
  | .extension, _, _, h => by cases h
  | .decimal p s, u, hs, h => by
    cases h
    simp only [Type1.meant, toNat_ofNat8 hs.1, toInt_ofNat8 hs.2]
  | .decimal256 p s, u, hs, h => by
    cases h
    simp only [Type1.meant, toNat_ofNat8 hs.1, toInt_ofNat8 hs.2]
theorem field_meant : ∀ (f : Field2) {g : Field1}, f.Sized → field1 f = some g → g.meant = f
  | .mk name t nullable, g, hs, h => by
    simp only [field1, Option.map_eq_some_iff] at h
    obtain ⟨u, hu, rfl⟩ := h
    simp only [Field1.meant, C158_meant t hs hu]
/-- And so does a schema: names, types, nullability and order. -/
theorem C158_schema_meant : ∀ (fs : Fields2) {gs : Fields1}, fs.Sized → fields1 fs = some gs → gs.meant = fs
  | .nil, gs, _, h => by cases h; rfl
  | .cons f fs, gs, hs, h => by
    simp only [fields1, Option.bind_eq_some_iff, Option.map_eq_some_iff] at h
    obtain ⟨g, hg, gs', hgs, rfl⟩ := h
    simp only [Fields1.meant, field_meant f hs.1 hg, C158_schema_meant fs hs.2 hgs]
end

mutual
/-- The conversion panics for types with something foreign in them, and for no others. -/
theorem C158_panics : ∀ t : Type2, type1 t = none ↔ t.Foreign
  | .plain _ | .timestamp _ _ | .time32 _ | .time64 _ | .duration _ | .interval _ | .fixedSizeBinary _ | .decimal _ _ | .decimal256 _ _ => by simp [type1, Type2.Foreign]
  | .union | .map | .dictionary | .extension => by simp [type1, Type2.Foreign]
  | .list f => by
    simp only [type1, Type2.Foreign, Option.map_eq_none_iff]
    exact field_panics f
  | .fixedSizeList f _ => by
    simp only [type1, Type2.Foreign, Option.map_eq_none_iff]
    exact field_panics f
  | .largeList f => by
    simp only [type1, Type2.Foreign, Option.map_eq_none_iff]
    exact field_panics f
  | .struct fs => by
    simp only [type1, Type2.Foreign, Option.map_eq_none_iff]
    exact C158_schema_panics fs
theorem field_panics : ∀ f : Field2, field1 f = none ↔ f.Foreign
  | .mk _ t _ => by
    simp only [field1, Field2.Foreign, Option.map_eq_none_iff]
    exact C158_panics t
theorem C158_schema_panics : ∀ fs : Fields2, fields1 fs = none ↔ fs.Foreign
  | .nil => by simp [fields1, Fields2.Foreign]
  | .cons f fs => by
    have h1 := field_panics f
    have h2 := C158_schema_panics fs
    simp only [fields1, Fields2.Foreign, ← h1, ← h2]
    cases field1 f with
    | none => simp
    | some g => simp
end

/-- Different types that arrow can size are different in arrow. -/
theorem C158_apart {t t' : Type2} {u : Type1} (hs : t.Sized) (hs' : t'.Sized) (h : type1 t = some u) (h' : type1 t' = some u) : t = t' :=
  (C158_meant t hs h).symm.trans (C158_meant t' hs' h')

/-- The fields of a schema are converted one by one. -/
theorem C158_fields : ∀ {fs : Fields2} {gs : Fields1}, fields1 fs = some gs → fs.toList.map field1 = gs.toList.map some
  | .nil, gs, h => by cases h; rfl
  | .cons f fs, gs, h => by
    simp only [fields1, Option.bind_eq_some_iff, Option.map_eq_some_iff] at h
    obtain ⟨g, hg, gs', hgs, rfl⟩ := h
    simp only [Fields2.toList, Fields1.toList, List.map_cons, hg, C158_fields hgs]

/-- Sizes of more than 32 bits are cut. -/
theorem C158_size_violated (n : Nat) : type1 (.fixedSizeBinary (n + 2 ^ 32)) = type1 (.fixedSizeBinary n) := by
  simp only [type1, Option.some.injEq, Type1.fixedSizeBinary.injEq]
  apply BitVec.eq_of_toNat_eq
  simp

/-! ## The types of the store -/

/-- The type of a column in the tables is the type that queries expect. -/
theorem C158_agree (d : DType) : (dtypeTo2 d).bind type1 = dtypeTo1 d := by
  have h : ∀ d, (simpleTo2 d).bind type1 = simpleTo1 d := by
    intro d
    cases d <;> rfl
  cases d <;> first | exact h _ | rfl

/-- C158, for types that are no lists. Missing: lists. -/
theorem C158_partial {d : DType} (h : ∀ e, d ≠ .list e) : (dtypeTo2 d).bind dtypeOf2 = some d ∧ (dtypeTo1 d).bind dtypeOf1 = some d := by
  cases d <;> first | exact absurd rfl (h _) | exact ⟨rfl, rfl⟩

/-- A list has the type of its elements, so no list is read as itself. -/
theorem C158_lists_violated (e : DType) : dtypeTo2 (.list e) = simpleTo2 e ∧ (dtypeTo2 (.list e)).bind dtypeOf2 ≠ some (.list e) ∧
    ((∀ e', e ≠ .list e') → dtypeTo2 (.list e) = dtypeTo2 e ∧ dtypeTo1 (.list e) = dtypeTo1 e) := by
  refine ⟨rfl, ?_, fun h => ?_⟩
  · cases e <;> simp [dtypeTo2, simpleTo2, dtypeOf2, simpleOf2]
  · cases e <;> first | exact absurd rfl (h _) | exact ⟨rfl, rfl⟩

theorem C158_violated : ¬ C158_full := fun h => (C158_lists_violated .string).2.1 (h _).1

/-- What is read from a table is read from its schema in arrow, lists included. -/
theorem C158_read {t : Type2} {u : Type1} (h : type1 t = some u) : dtypeOf1 u = dtypeOf2 t := by
  have hs : ∀ {t : Type2} {u : Type1}, type1 t = some u → simpleOf1 u = simpleOf2 t := by
    intro t u h
    cases t <;> simp only [type1, Option.map_eq_some_iff, Option.some.injEq, reduceCtorEq] at h
    case plain p => subst h; cases p <;> rfl
    all_goals first | (subst h; rfl) | (obtain ⟨_, -, rfl⟩ := h; rfl)
  cases t with
  | list f =>
    obtain ⟨name, t, nullable⟩ := f
    simp only [type1, field1, Option.map_map, Option.map_eq_some_iff] at h
    obtain ⟨v, hv, rfl⟩ := h
    exact hs hv
  | _ =>
    have e := hs h
    simp only [type1, Option.map_eq_some_iff, Option.some.injEq, reduceCtorEq] at h <;> first
      | (subst h; exact e)
      | (obtain ⟨_, -, rfl⟩ := h; exact e)

/-- As in `C158_meant`: a list of decimals in a structure. -/
example : ∃ u, type1 (.struct (.cons (.mk "a".toList (.list (.mk "item".toList (.decimal 28 16) true)) false) .nil)) = some u ∧
    (Type2.struct (.cons (.mk "a".toList (.list (.mk "item".toList (.decimal 28 16) true)) false) .nil)).Sized :=
  ⟨_, rfl, ⟨by decide, by decide⟩, trivial⟩

example : (Type2.list (.mk "item".toList .dictionary true)).Foreign := trivial

end OptiPrism.Storage
