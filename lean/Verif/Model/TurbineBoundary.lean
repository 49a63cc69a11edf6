import Verif.Model.GasMix

/-!
# Model of the boundary conditions at the turbine plenum, at an outlet with given pressure and for a given Mach number

Source: `/repo/src/AMReX/boundary_condition/TurbinePlenumBoundaryCondition.cpp`, `/repo/src/AMReX/cutcell/boundary_condition/PressureOutflowBoundary.cpp`,
`/repo/src/AMReX/cutcell/boundary_condition/PressureOutflowBoundary2.cpp`, `/repo/include/fub/AMReX/cutcell/boundary_condition/MachnumberBoundary.hpp`.

Simplifications: exact real numbers. Only the computation of the ghost state from the state of the boundary cell is modelled; which cells are read and written is the
subject of the models of the boundary conditions on index boxes. A failed assertion is `none`.
-/

namespace Fub
open Finset
variable {d s t : ℕ}

/-- The ghost state of `TurbinePlenumBoundaryCondition::FillBoundary`; `pflush` and `Tflush` are pressure and temperature of the turbine plenum, `q` is the state
of the last cell of the tube. /repo/src/AMReX/boundary_condition/TurbinePlenumBoundaryCondition.cpp:47-49,61,76-136 -/
noncomputable def turbineGhost (eq : MixEq) (pflush Tflush : ℝ) (q : MixComplete 0 s t) : Option (MixComplete 0 s t) :=
  let rhoflush := pflush / Tflush
  let Msqinv := 1 / eq.Msq
  let rho := q.density
  let u := q.momentum 0 / rho
  let ek := 1 / 2 * rho * (u * u)
  let p := q.pressure
  let T := p / rho
  let pratio := pflush / p
  let rhoratio := pratio ^ eq.gammaInv
  let Tratio := pratio / rhoratio
  let cons : MixCons 0 s t :=
    if p < pflush then
      if u ≤ 0 then
        let uout := -Real.sqrt (max 0 (2 * eq.gammaOverGammaMinusOne * (Tratio - 1) * T)) * Msqinv
        let rhoout := rhoflush / rhoratio
        { density := rhoout
          momentum := fun _ => uout * rhoout
          energy := p * eq.gammaMinusOneInv + 1 / 2 * rhoout * (uout * uout)
          species := fun i => q.species i * rhoout / rho
          scalars := q.scalars }
      else
        let uout := Real.sqrt (max 0 (u * u - 2 * eq.gammaOverGammaMinusOne * (Tratio - 1) * T) * Msqinv)
        let rhoout := rho * rhoratio
        { density := rhoout
          momentum := fun _ => uout * rhoout
          energy := pflush * eq.gammaMinusOneInv + 1 / 2 * rhoout * (uout * uout)
          species := fun i => q.species i * rhoratio
          scalars := q.scalars }
    else
      if u ≤ 0 then
        { density := q.density * rhoratio
          momentum := fun _ => 0
          energy := pflush * eq.gammaMinusOneInv + (ek - 1 / 2 * rho * u * u) * rhoratio
          species := fun i => q.species i * rhoratio
          scalars := q.scalars }
      else
        { density := q.density * rhoratio
          momentum := fun i => q.momentum i * rhoratio
          energy := pflush * eq.gammaMinusOneInv + ek * rhoratio
          species := fun i => q.species i * rhoratio
          scalars := q.scalars }
  mixComplete eq cons

/-- The ghost state of `PressureOutflowBoundary::FillBoundary` for the perfect gas; `open_` says that the volume fractions of the ghost cell and of the cell that is read are
positive, `pb` is the given pressure. /repo/src/AMReX/cutcell/boundary_condition/PressureOutflowBoundary.cpp:60-61,85-99 -/
noncomputable def gasPressureOutflow (eq : GasEq) (pb : ℝ) (open_ : Bool) (q : GasComplete d) : Option (GasComplete d) :=
  if open_ then
    if 0 < q.speedOfSound then
      let c2 := q.speedOfSound * q.speedOfSound
      let velocity := gasVelocity q
      if ∑ i, velocity i * velocity i ≤ c2 then some (gasFromPrim eq ⟨eq.gamma * pb / c2, velocity, pb⟩) else some q
    else none
  else some ⟨0, fun _ => 0, 0, 0, 0⟩

/-- The ghost state of `PressureOutflowBoundary2::FillBoundary` for the gas mixture. /repo/src/AMReX/cutcell/boundary_condition/PressureOutflowBoundary2.cpp:49-50,74-91 -/
noncomputable def mixPressureOutflow (eq : MixEq) (pb : ℝ) (open_ : Bool) (q : MixComplete d s t) : Option (MixComplete d s t) :=
  if open_ then
    if 0 < q.speedOfSound then
      let c2 := q.speedOfSound * q.speedOfSound
      let velocity := mixVelocity q.toMixCons
      if ∑ i, velocity i * velocity i ≤ c2 then
        some (mixFromPrim eq { mixPrim q with density := eq.gamma * pb / c2, pressure := pb })
      else some q
    else none
  else some ⟨⟨0, fun _ => 0, 0, fun _ => 0, fun _ => 0⟩, 0, 0⟩

/-- `MachnumberBoundary::ExpandState` for the gas mixture; `Ma` is the required Mach number.
/repo/include/fub/AMReX/cutcell/boundary_condition/MachnumberBoundary.hpp:122-158 -/
noncomputable def machBoundary (eq : MixEq) (Ma : ℝ) (dir : Fin (d + 1)) (source : MixComplete d s t) : MixComplete d s t :=
  let prim := mixPrim source
  let rho := source.density
  let p := source.pressure
  let gamma := eq.gamma
  let c := source.speedOfSound
  let c2 := c * c
  let u := prim.velocity dir
  let u2 := u * u
  let Ma2 := u2 / c2
  let gammaMinus := gamma - 1
  let gammaPlus := gamma + 1
  let p0 := p * (1 + 1 / 2 * Ma2 * gammaMinus) ^ (gamma / gammaMinus)
  let rho0 := rho * (1 + 1 / 2 * Ma2 * gammaMinus) ^ (1 / gammaMinus)
  let Ma2r := Ma * Ma
  let laval2 := Ma2r * gammaPlus / (Ma2r * gammaMinus + 2)
  let pn := p0 * (1 - gammaMinus / gammaPlus * laval2) ^ (gamma / gammaMinus)
  let rhon := rho0 * (1 - gammaMinus / gammaPlus * laval2) ^ (1 / gammaPlus)
  let c2critical := (c2 + 1 / 2 * gammaMinus * u2) * 2 / gammaPlus
  let u2n := laval2 * c2critical
  mixFromPrim eq { prim with density := rhon, pressure := pn, velocity := fun i => if i = dir then Real.sqrt u2n else prim.velocity i }

end Fub
