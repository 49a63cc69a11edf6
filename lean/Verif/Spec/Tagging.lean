import Verif.Model.Tagging
import Verif.Spec.IndexBox
import Mathlib.Algebra.BigOperators.Group.Finset.Basic
import Mathlib.Order.Interval.Finset.Nat

/-! Vocabulary for the properties of the tagging methods. -/

namespace Fub
variable {K : Type*} [Field K] [LinearOrder K] [IsStrictOrderedRing K]

/-- Two values differ by more than `tol`, relative to the sum of their absolute values; two zeros do not differ. -/
def RelDiffers (tol a b : K) : Prop := tol * (|a| + |b|) < |a - b|

/-- The cell of level 0 that contains the cell `c` of level `level`, where `ratio l` is the refinement ratio between the levels `l - 1` and `l`. -/
def ancestor {n : ℕ} (ratio : ℕ → Index n) (level : ℕ) (c : Index n) : Index n := fun d => c d / ∏ l ∈ Finset.Icc 1 level, ratio l d

end Fub
