import Verif.Spec.NodalRelax
import Verif.Model.NodalHelmLin

/-!
Specification of the solution on a patch for the operator for linear velocities.
-/

namespace Fub

/-- The field solves the equation at the nodes of the patch (zero at masked nodes) and agrees with the given field at all others, in particular at the ghost nodes. -/
def LinPatchSolution (c : LinCoef ℤ ℤ ℝ) (msk : ℤ → ℤ → Bool) (rhs : ℤ → ℤ → ℝ) (patch : ℤ → ℤ → Prop) (given x : ℤ → ℤ → ℝ) : Prop :=
  (∀ i j, patch i j → (msk i j = true → x i j = 0) ∧ (msk i j = false → linApply c msk x i j = rhs i j))
    ∧ ∀ i j, ¬ patch i j → x i j = given i j

end Fub
