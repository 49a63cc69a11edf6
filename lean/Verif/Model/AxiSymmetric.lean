import Mathlib.Data.Real.Basic
import Mathlib.Algebra.Order.Floor.Semiring
import Mathlib.Algebra.Order.Archimedean.Real.Basic

/-!
The source term of axi-symmetric flows. Source: `/repo/src/AMReX/cutcell/AxiSymmetricSourceTerm.cpp`.

Simplifications: exact real numbers instead of `double`; the pressure of a conservative state is a parameter, because the thermodynamics of the mixture is outside of the repository. The integrator is Boost.Odeint (not in the
repository): `runge_kutta4` is the classical method, `integrate_const` makes steps of the given size as long as they do not pass the end, and none if the step size points away from the end.
-/

namespace Fub
variable {s : ℕ}

/-- The buffer: density, momentum (axial, radial), energy, species. /repo/src/AMReX/cutcell/AxiSymmetricSourceTerm.cpp:54-64,81-87 -/
@[ext] structure AxiCons (s : ℕ) where
  density : ℝ
  axial : ℝ
  radial : ℝ
  energy : ℝ
  species : Fin s → ℝ

/-- `U + h k`, as used by the stepper. Serves the model of /repo/src/AMReX/cutcell/AxiSymmetricSourceTerm.cpp:54-100. -/
def AxiCons.axpy (U : AxiCons s) (h : ℝ) (k : AxiCons s) : AxiCons s :=
  ⟨U.density + h * k.density, U.axial + h * k.axial, U.radial + h * k.radial, U.energy + h * k.energy, fun i => U.species i + h * k.species i⟩

/-- The right hand side. /repo/src/AMReX/cutcell/AxiSymmetricSourceTerm.cpp:71-88 -/
noncomputable def axiRhs (press : AxiCons s → ℝ) (r : ℝ) (U : AxiCons s) : AxiCons s :=
  let rho := U.density
  let rhoH := U.energy + press U
  let u := U.radial / rho
  let v := U.axial / rho
  { density := -rho * u / r
    axial := -rho * u * v / r
    radial := -rho * u * u / r
    energy := -rhoH * u / r
    species := fun i => -rho * U.species i * u / r }

/-- One step of the classical Runge-Kutta method (Boost.Odeint `runge_kutta4`). Serves the model of /repo/src/AMReX/cutcell/AxiSymmetricSourceTerm.cpp:54-100. -/
noncomputable def rk4Step (f : AxiCons s → AxiCons s) (h : ℝ) (U : AxiCons s) : AxiCons s :=
  let k1 := f U
  let k2 := f (U.axpy (h / 2) k1)
  let k3 := f (U.axpy (h / 2) k2)
  let k4 := f (U.axpy h k3)
  (((U.axpy (h / 6) k1).axpy (h / 3) k2).axpy (h / 3) k3).axpy (h / 6) k4

/-- `integrate_const` from `0` to `dt` with steps of size `h` (Boost.Odeint); the number of steps is the largest `n` with `n h ≤ dt`, or zero for a step size that is not positive. Serves the model of /repo/src/AMReX/cutcell/AxiSymmetricSourceTerm.cpp:56-100. -/
noncomputable def integrateConst (f : AxiCons s → AxiCons s) (dt h : ℝ) (U : AxiCons s) : AxiCons s :=
  if 0 < h then (rk4Step f h)^[⌊dt / h⌋₊] U else U

/-- The step size `min(dt, r / u)`; `r / 0` is infinite. /repo/src/AMReX/cutcell/AxiSymmetricSourceTerm.cpp:65-67 -/
noncomputable def axiStepSize (dt r u : ℝ) : ℝ := if u = 0 then dt else min dt (r / u)

/-- One cell: cells that are covered or not at positive radius are left alone; `none` is the exception for a density that is not positive.
/repo/src/AMReX/cutcell/AxiSymmetricSourceTerm.cpp:56-100 -/
noncomputable def axiCell (press : AxiCons s → ℝ) (alpha r dt : ℝ) (U : AxiCons s) : Option (AxiCons s) :=
  if 0 < alpha then
    if 0 < r then
      let rho := U.density
      let u := U.radial / rho
      let U' := integrateConst (axiRhs press r) dt (axiStepSize dt r u) U
      if U'.density ≤ 0 then none else some U'
    else some U
  else some U

end Fub
