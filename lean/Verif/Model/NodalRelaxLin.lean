import Verif.Model.NodalHelmLin
import Verif.Model.NodalRelax

/-!
The smoothing step of the multigrid solver with the operator for piecewise linear velocities (`MLNodeHelmDualLinVel::Fsmooth`), on a patch of a level whose coefficient has one component.

Simplifications: as in `Verif.Model.NodalRelax`; the branches with harmonic averages and the version for graphics cards are not modelled.
-/

namespace Fub
variable {K : Type} [Field K]

/-- `Fsmooth` with Gauss-Seidel on one patch: two sweeps over its nodes. /repo/src/AMReX/MLMG/MLNodeHelmDualLinVel.cpp:920-922, 946-966 -/
def linSmoothGS (c : LinCoef ℤ ℤ K) (msk : ℤ → ℤ → Bool) (rhs : ℤ → ℤ → K) (ilo ihi jlo jhi : ℤ) (sol : ℤ → ℤ → K) : ℤ → ℤ → K :=
  linGsSweep c msk rhs (boxNodes ilo ihi jlo jhi) (linGsSweep c msk rhs (boxNodes ilo ihi jlo jhi) sol)

/-- `Fsmooth` with Jacobi on one patch: one sweep over its nodes, computed from the values before the sweep. /repo/src/AMReX/MLMG/MLNodeHelmDualLinVel.cpp:968-970, 994-1011 -/
def linSmoothJacobi (c : LinCoef ℤ ℤ K) (msk : ℤ → ℤ → Bool) (rhs : ℤ → ℤ → K) (ilo ihi jlo jhi : ℤ) (sol : ℤ → ℤ → K) : ℤ → ℤ → K :=
  fun i j => if (ilo ≤ i ∧ i ≤ ihi) ∧ (jlo ≤ j ∧ j ≤ jhi) then linJacobi c msk rhs sol i j else sol i j

end Fub
