import Verif.Platform.ReportApi
import Mathlib.Tactic.DeriveCountable
import Mathlib.Data.Countable.Basic
import Mathlib.Logic.Equiv.List

/-!
# There is a way to write queries as bytes

The `bincode` crate is a parameter of the model (`Bincode`). This shows that its law can be met for report queries.
-/

namespace OptiPrism.Platform

instance : Countable Char := ⟨⟨Char.toNat, fun _ _ h => Char.ext (UInt32.toNat_inj.mp h)⟩⟩
instance : Countable OptiPrism.Meta.Str := inferInstanceAs (Countable (List Char))
deriving instance Countable for OptiPrism.Meta.PropOp
deriving instance Countable for OptiPrism.Meta.PropertyRef
deriving instance Countable for OptiPrism.Meta.EventRef
instance (n : Nat) : Countable (BitVec n) := ⟨⟨BitVec.toNat, fun _ _ h => BitVec.eq_of_toNat_eq h⟩⟩
deriving instance Countable for OptiPrism.Meta.Scalar
deriving instance Countable for OptiPrism.Meta.PropFilter
deriving instance Countable for OptiPrism.Query.Unit'
deriving instance Countable for OptiPrism.Query.QueryTime
deriving instance Countable for CAgg
deriving instance Countable for CPAgg
deriving instance Countable for CQAgg
deriving instance Countable for CSegTime
deriving instance Countable for CDid
deriving instance Countable for CCond
deriving instance Countable for CSegment
deriving instance Countable for CChart
deriving instance Countable for CAnalysis
deriving instance Countable for CCompare
deriving instance Countable for CQuery
deriving instance Countable for CEvent
deriving instance Countable for CSegReq
deriving instance Countable for CFEvent
deriving instance Countable for CStepOrder
deriving instance Countable for CStep
deriving instance Countable for CUnitS
deriving instance Countable for CWindow
deriving instance Countable for CExSteps
deriving instance Countable for CCount
deriving instance Countable for CExclude
deriving instance Countable for CFFilter
deriving instance Countable for CTouch
deriving instance Countable for CFChart
deriving instance Countable for CFunnel
deriving instance Countable for CReportQuery

theorem bincode_exists : Nonempty (OptiPrism.Meta.Bincode CReportQuery) := by
  obtain ⟨f, hf⟩ := Countable.exists_injective_nat CReportQuery
  classical
  refine ⟨⟨fun q => List.replicate (f q) 0, fun b => if h : ∃ q, f q = b.length then some h.choose else none, fun q => ?_⟩⟩
  have h : ∃ q', f q' = (List.replicate (f q) (0 : UInt8)).length := ⟨q, by simp⟩
  have e := h.choose_spec
  simp only [List.length_replicate] at e
  simp only [List.length_replicate]
  rw [dif_pos ⟨q, rfl⟩]
  have := (⟨q, rfl⟩ : ∃ q', f q' = f q).choose_spec
  exact congrArg some (hf this)

end OptiPrism.Platform
