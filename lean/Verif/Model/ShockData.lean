import Verif.Model.Gas

/-!
# Model of the shock initial data and of the mass flow boundary at cut cells

Source: `/repo/include/fub/initial_data/ShockMachnumber.hpp`, `/repo/include/fub/AMReX/cutcell/initial_data/RiemannProblem.hpp`, `/repo/src/AMReX/cutcell/boundary_condition/MassflowBoundary.cpp`.

Simplifications: exact real numbers. The template over the equation is modelled for `PerfectGas`. For the mass flow boundary the chemical reactor is left out: it holds the pressure and changes the density by the
isentropic relation with the ratio of heat capacities of the inner state.
-/

namespace Fub
open Finset
variable {d : ℕ}

/-- Norm of the velocity. /repo/src/equations/PerfectGas.cpp:211-214 -/
noncomputable def gasSpeed (q : GasComplete d) : ℝ := Real.sqrt (∑ i, gasVelocity q i ^ 2)

/-- `ShockMachnumber::ComputePreShockState`. /repo/include/fub/initial_data/ShockMachnumber.hpp:41-66 -/
noncomputable def preShockState (eq : GasEq) (post : GasComplete d) (MS : ℝ) (normal : Fin d → ℝ) : GasComplete d :=
  let g := eq.gamma
  let gp1 := g + 1
  let gm1 := g - 1
  let MPost := gasSpeed post / post.speedOfSound
  let M2 := (MPost - MS) * (MPost - MS)
  let rhoC := gp1 * M2 / (gm1 * M2 + 2)
  let rhoPost := post.density
  let rhoPre := rhoPost * rhoC
  let pC := (2 * g * M2 - gm1) / gp1
  let pPost := post.pressure
  let pPre := pPost * pC
  let t := rhoPost / rhoPre
  let aPost := post.speedOfSound
  let uS := MS * aPost
  let uPost := gasSpeed post
  let uPre := uS * (1 - t) + uPost * t
  gasFromPrim eq ⟨rhoPre, fun i => uPre * normal i, pPre⟩

/-- The type of a patch with respect to the embedded boundary. Serves the model of /repo/include/fub/AMReX/cutcell/initial_data/RiemannProblem.hpp:66-108. -/
inductive FabKind | covered | regular | mixed

/-- `RiemannProblem::InitializeData` for one cell: `kind` is the type of its patch, `alpha` its volume fraction and `phi` the value of the geometry at its centre.
/repo/include/fub/AMReX/cutcell/initial_data/RiemannProblem.hpp:66-108 -/
noncomputable def riemannCell (left right : GasComplete d) (kind : FabKind) (alpha phi : ℝ) : GasComplete d :=
  match kind with
  | .covered => ⟨0, fun _ => 0, 0, 0, 0⟩
  | .regular => if phi < 0 then left else right
  | .mixed => if alpha = 0 then ⟨0, fun _ => 0, 0, 0, 0⟩ else if phi < 0 then left else right

/-- The velocity `u_n` and the pressure `p_n` of the outer state in `MassflowBoundary::FillBoundary` at cut cells from density, velocity, speed of sound and pressure of the inner state.
/repo/src/AMReX/cutcell/boundary_condition/MassflowBoundary.cpp:118-138 -/
noncomputable def massflowCut (gamma rho u c p required area : ℝ) : ℝ × ℝ :=
  let gammaMinus := gamma - 1
  let gammaPlus := gamma + 1
  let rGammaPlus := 1 / gammaPlus
  let cCritical := Real.sqrt (c * c + 1 / 2 * gammaMinus * u * u) * Real.sqrt (2 * rGammaPlus)
  let un := required / rho / area
  let lambda := u / cCritical
  let lambdaN := un / cCritical
  let gammaQuot := gammaMinus * rGammaPlus
  let p0n := p * (1 - gammaQuot * lambdaN * lambdaN) ^ (-gamma / gammaMinus)
  (un, p0n * (1 - gammaQuot * lambda * lambda) ^ (gamma / gammaMinus))

end Fub
