/-!
# Small list lemmas used across the models
-/

namespace OptiPrism

theorem nodup_map_inj {α β : Type} {f : α → β} {l : List α} (h : (l.map f).Nodup) {a b : α}
    (ha : a ∈ l) (hb : b ∈ l) (he : f a = f b) : a = b := by
  induction l with
  | nil => cases ha
  | cons x l ih =>
    rw [List.map_cons, List.nodup_cons] at h
    rcases List.mem_cons.mp ha with rfl | ha'
    · rcases List.mem_cons.mp hb with rfl | hb'
      · rfl
      · exact absurd (he ▸ List.mem_map_of_mem hb') h.1
    · rcases List.mem_cons.mp hb with rfl | hb'
      · exact absurd (he ▸ List.mem_map_of_mem ha') h.1
      · exact ih h.2 ha' hb'

theorem find?_of_nodup {α β : Type} [BEq β] [LawfulBEq β] {f : α → β} {l : List α}
    (h : (l.map f).Nodup) {a : α} (ha : a ∈ l) : l.find? (fun x => f x == f a) = some a := by
  cases hf : l.find? (fun x => f x == f a) with
  | none =>
    rw [List.find?_eq_none] at hf
    exact absurd (by simp) (hf a ha)
  | some b =>
    have hb := List.mem_of_find?_eq_some hf
    have he : f b = f a := by simpa using List.find?_some hf
    rw [nodup_map_inj h hb ha he]

/-! ### insertion sort (stable), used to meet sorting hypotheses in examples -/

def insertBy {α : Type} (le : α → α → Bool) (a : α) : List α → List α
  | [] => [a]
  | b :: l => if le a b then a :: b :: l else b :: insertBy le a l

def isort {α : Type} (le : α → α → Bool) : List α → List α
  | [] => []
  | a :: l => insertBy le a (isort le l)

theorem insertBy_perm {α : Type} (le : α → α → Bool) (a : α) (l : List α) :
    (insertBy le a l).Perm (a :: l) := by
  induction l with
  | nil => exact List.Perm.refl _
  | cons b l ih =>
    unfold insertBy
    split
    · exact List.Perm.refl _
    · exact (ih.cons b).trans (List.Perm.swap a b l)

theorem isort_perm {α : Type} (le : α → α → Bool) (l : List α) : (isort le l).Perm l := by
  induction l with
  | nil => exact List.Perm.refl _
  | cons a l ih => exact (insertBy_perm le a _).trans (ih.cons a)

theorem isort_sorted {α : Type} (le : α → α → Bool)
    (total : ∀ a b, le a b = true ∨ le b a = true)
    (trans : ∀ a b c, le a b = true → le b c = true → le a c = true) (l : List α) :
    (isort le l).Pairwise fun a b => le a b = true := by
  induction l with
  | nil => exact List.Pairwise.nil
  | cons a l ih =>
    unfold isort
    generalize isort le l = s at ih
    induction s with
    | nil => simp [insertBy]
    | cons b s ihs =>
      unfold insertBy
      have hb := List.pairwise_cons.mp ih
      split
      · rename_i h
        refine List.pairwise_cons.mpr ⟨?_, ih⟩
        intro x hx
        rcases List.mem_cons.mp hx with rfl | hx
        · exact h
        · exact trans _ _ _ h (hb.1 x hx)
      · rename_i h
        refine List.pairwise_cons.mpr ⟨?_, ihs hb.2⟩
        intro x hx
        rcases List.mem_cons.mp ((insertBy_perm le a s).mem_iff.mp hx) with rfl | hx
        · exact (total _ _).resolve_left h
        · exact hb.1 x hx

end OptiPrism
