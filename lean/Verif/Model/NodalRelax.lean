import Verif.Model.NodalHelm

/-!
Repeated smoothing of the pressure equation on one patch. Source: `/repo/src/AMReX/MLMG/MLNodeHelmDualCstVel.cpp`, `Fsmooth`.

A patch owns the nodes of a box; the nodes around it are ghost nodes, which the smoother reads and does not write. Simplifications as in `Model/NodalHelm.lean`; the exchange of ghost nodes between calls (`nodalSync`, `applyBC`) is left out, so a repeated call models one patch whose ghost nodes keep their values.
-/

namespace Fub
variable {K : Type} [Field K]

/-- `Fsmooth` with Gauss-Seidel on one patch: two sweeps over its nodes. /repo/src/AMReX/MLMG/MLNodeHelmDualCstVel.cpp:943-945, 972-989 -/
def smoothGS (c : HelmCoef ℤ ℤ K) (msk : ℤ → ℤ → Bool) (rhs : ℤ → ℤ → K) (ilo ihi jlo jhi : ℤ) (sol : ℤ → ℤ → K) : ℤ → ℤ → K :=
  gsSweep c msk rhs (boxNodes ilo ihi jlo jhi) (gsSweep c msk rhs (boxNodes ilo ihi jlo jhi) sol)

/-- `Fsmooth` with Jacobi on one patch: one sweep over its nodes, computed from the values before the sweep. /repo/src/AMReX/MLMG/MLNodeHelmDualCstVel.cpp:991-1035 -/
def smoothJacobi (c : HelmCoef ℤ ℤ K) (msk : ℤ → ℤ → Bool) (rhs : ℤ → ℤ → K) (ilo ihi jlo jhi : ℤ) (sol : ℤ → ℤ → K) : ℤ → ℤ → K :=
  fun i j => if (ilo ≤ i ∧ i ≤ ihi) ∧ (jlo ≤ j ∧ j ≤ jhi) then jacobiSweep c msk rhs sol i j else sol i j

end Fub
