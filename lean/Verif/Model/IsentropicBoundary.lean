import Verif.Model.IdealGasMix
import Verif.Model.GasMix

/-!
# The isentropic pressure boundaries of the ideal gas mixture

Model of `FlameMasterReactor::SetPressureIsentropic` (`/repo/src/equations/ideal_gas_mix/FlameMasterReactor.cpp`) and of the ghost states of
`/repo/src/AMReX/boundary_condition/IsentropicPressureBoundary.cpp` and
`/repo/src/AMReX/cutcell/boundary_condition/IsentropicPressureBoundary.cpp` (`cutcell/IPB.cpp`). Which cells are filled is in `Model/CutBoundary.lean`.
The ODE solver is abstract: its evaluations of the right-hand side and its result are given by an `IsoRun`. Numbers are real.
-/

namespace Fub
variable {d : ℕ} {S : Type*} [Fintype S]

/-- What the ODE solver did: the pairs of temperature and pressure at which it evaluated the right-hand side, and the temperature and the velocity it
stored in the vector. Serves the model of /repo/src/equations/ideal_gas_mix/FlameMasterReactor.cpp:944-963. -/
structure IsoRun where
  stages : List (ℝ × ℝ)
  temperature : ℝ
  velocity : ℝ

/-- The reactor after `OdeRhsSetP` was evaluated at temperature `T` and pressure `p`, `/repo/src/equations/ideal_gas_mix/FlameMasterReactor.cpp:166-176`. -/
noncomputable def ReactorState.isoStage (m : Mechanism S ℝ) (s : ReactorState S ℝ) (y : ℝ × ℝ) : ReactorState S ℝ :=
  (s.setTemperature m y.1).setPressure m y.2

/-- `OdeRhsSetP`, `/repo/src/equations/ideal_gas_mix/FlameMasterReactor.cpp:166-183`: the derivatives of temperature and velocity. -/
noncomputable def odeRhsSetP (m : Mechanism S ℝ) (s : ReactorState S ℝ) (T p : ℝ) : ℝ × ℝ :=
  let r := s.isoStage m (T, p)
  let cpRho := r.density * r.cp
  (1 / cpRho, -Real.sqrt (r.cv m / (cpRho * p)))

/-- `SetPressureIsentropic`, `/repo/src/equations/ideal_gas_mix/FlameMasterReactor.cpp:944-963`: the reactor afterwards and the returned velocity. -/
noncomputable def ReactorState.setPressureIsentropic (m : Mechanism S ℝ) (run : IsoRun) (p : ℝ) (s : ReactorState S ℝ) : ReactorState S ℝ × ℝ :=
  if |p - s.pressure m| < 1e-5 then (s, 0)
  else
    let s1 := run.stages.foldl (fun x y => x.isoStage m y) s
    ((s1.setTemperature m run.temperature).setPressure m p, run.velocity)

/-- The velocity behind the expansion, `/repo/src/AMReX/boundary_condition/IsentropicPressureBoundary.cpp:78-89`; `dh` is `enthalpyDifference`. -/
noncomputable def isoVelocity (eff dh u : ℝ) : ℝ :=
  if sgn u = sgn dh then sgn dh * Real.sqrt (eff * |dh| * 2 + u * u)
  else
    let inner := eff * |dh| * 2 - u * u
    if 0 < inner then sgn dh * Real.sqrt |inner| else sgn inner * Real.sqrt |inner|

/-- `energy / density + pressure / density`, `/repo/src/AMReX/boundary_condition/IsentropicPressureBoundary.cpp:71-72`. -/
noncomputable def igmTotalEnthalpy (q : IgmComplete d S) : ℝ := q.energy / q.density + q.pressure / q.density

/-- `IsentropicExpansionWithoutDissipation` of the one-dimensional boundary, `/repo/src/AMReX/boundary_condition/IsentropicPressureBoundary.cpp:62-93`. -/
noncomputable def igmExpansion1d (m : Mechanism S ℝ) (run : IsoRun) (pDest eff : ℝ) (src : IgmComplete 1 S) (s : ReactorState S ℝ) :
    ReactorState S ℝ × IgmComplete 1 S :=
  let old := src.momentum 0 / src.density
  let s1 := igmSetReactor m src s
  let hBefore := igmTotalEnthalpy (igmCompleteFromReactor m s1 (fun _ : Fin 1 => 0))
  let s2 := (s1.setPressureIsentropic m run pDest).1
  let dest := igmCompleteFromReactor m s2 (fun _ : Fin 1 => 0)
  let dh := hBefore - igmTotalEnthalpy dest
  let u := isoVelocity eff dh old
  let momentum := dest.density * u
  (s2, { dest with momentum := fun _ => momentum, energy := dest.energy + 1 / 2 * u * momentum })

/-- `IsentropicExpansionWithoutDissipation_` of the boundary with embedded boundary, `/repo/src/AMReX/cutcell/boundary_condition/IsentropicPressureBoundary.cpp:57-87`. -/
noncomputable def igmExpansionCut (m : Mechanism S ℝ) (run : IsoRun) (pDest eff : ℝ) (src : IgmComplete (d + 1) S) (s : ReactorState S ℝ) :
    ReactorState S ℝ × IgmComplete (d + 1) S :=
  let old : Fin (d + 1) → ℝ := fun i => src.momentum i / src.density
  let s1 := igmSetReactor m src s
  let hBefore := igmTotalEnthalpy (igmCompleteFromReactor m s1 (fun _ : Fin (d + 1) => 0))
  let s2 := (s1.setPressureIsentropic m run pDest).1
  let dest := igmCompleteFromReactor m s2 (fun _ : Fin (d + 1) => 0)
  let dh := hBefore - igmTotalEnthalpy dest
  let u := sgn dh * Real.sqrt (eff * |dh| * 2 + old 0 * old 0)
  let momentum : Fin (d + 1) → ℝ := fun i => dest.density * if i = 0 then u else old i
  (s2, { dest with momentum := momentum, energy := dest.energy + 1 / 2 * (∑ i, momentum i * momentum i) / dest.density })

/-- The state which the boundary with embedded boundary stores in a ghost cell for the state `q` of the source cell, `/repo/src/AMReX/cutcell/boundary_condition/IsentropicPressureBoundary.cpp:143-156`. -/
noncomputable def igmGhostCut (m : Mechanism S ℝ) (run : IsoRun) (pOut : ℝ) (q : IgmComplete (d + 1) S) (s : ReactorState S ℝ) :
    ReactorState S ℝ × IgmComplete (d + 1) S :=
  let c2 := q.speedOfSound * q.speedOfSound
  let u2 := ∑ i, (q.momentum i / q.density) * (q.momentum i / q.density)
  if u2 < c2 then
    let s1 := (((s.setDensity q.density).setMassFractions m q.species).setTemperature m q.temperature).setPressure m pOut
    igmExpansionCut m run pOut 1 (igmCompleteFromReactor m s1 fun _ => 0) s1
  else (s, q)

end Fub
