import Verif.Storage.DiskProps

/-! C67 for the recovery of a table: the log replayed and continued is the newest one. -/

namespace OptiPrism.Storage

variable {R K : Type}

theorem maxLog_spec : ∀ (logs : List (Nat × List R)), logs ≠ [] →
    ∃ q ∈ logs, maxLog logs = some q ∧ ∀ x ∈ logs, x.1 ≤ q.1
  | [], h => absurd rfl h
  | q :: qs, _ => by
    by_cases hq : qs = []
    · subst hq
      exact ⟨q, by simp, rfl, by intro x hx; simp at hx; rw [hx]; exact Nat.le_refl _⟩
    · obtain ⟨m, h1, h2, h3⟩ := maxLog_spec qs hq
      unfold maxLog
      rw [h2]
      dsimp only
      by_cases hlt : m.1 < q.1
      · refine ⟨q, by simp, if_pos hlt, ?_⟩
        intro x hx
        rcases List.mem_cons.mp hx with rfl | hx
        · exact Nat.le_refl _
        · have := h3 x hx; omega
      · refine ⟨m, List.mem_cons_of_mem _ h1, if_neg hlt, ?_⟩
        intro x hx
        rcases List.mem_cons.mp hx with rfl | hx
        · omega
        · exact h3 x hx

/-- C67: whatever logs a crash left in the directory, an opened table has the rows of the newest of
them in memory and goes on writing to that log. -/
theorem C67_reopen (d : Disk R K) (p : Proc R K) (h : reopen d = .ok p) :
    (p.log, p.mem) ∈ d.logs ∧ ∀ x ∈ d.logs, x.1 ≤ p.log := by
  unfold reopen at h
  cases hm : d.manifest with
  | none => rw [hm] at h; cases h
  | some md =>
    rw [hm] at h
    by_cases hl : d.logs = []
    · rw [hl] at h; cases h
    · obtain ⟨q, h1, h2, h3⟩ := maxLog_spec d.logs hl
      rw [h2] at h
      cases h
      exact ⟨h1, h3⟩

/-- Two logs, as after a crash that left an older one behind. -/
example : reopen (K := Nat) ⟨some ⟨4, []⟩, [(3, [1, 2]), (4, [5])], fun _ _ => none⟩ =
    .ok ⟨⟨4, []⟩, [(5 : Nat)], 4⟩ := rfl

end OptiPrism.Storage
