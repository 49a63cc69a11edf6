import Verif.Model.Gas

/-!
# Independent specification of the perfect gas

Only textbook relations of an ideal gas: the equation of state, the sound speed, orthogonal maps and the flux through a face with normal `n`.
-/

namespace Fub
open Finset
variable {d : ℕ}

/-- The members of an equation object describe one gas: the ratio of specific heats is larger than one and the derived members fit to it. -/
structure GasEq.Valid (eq : GasEq) : Prop where
  one_lt : 1 < eq.gamma
  inv : eq.gammaMinus1Inv * (eq.gamma - 1) = 1
  arr : eq.gammaArray = eq.gamma
  invArr : eq.gammaMinus1InvArray = eq.gammaMinus1Inv

/-- `q` is a thermodynamic state of the gas: positive density and pressure, total energy is internal plus kinetic energy,
the sound speed is the positive root of `γ p / ρ`. -/
structure IsGasState (eq : GasEq) (q : GasComplete d) : Prop where
  density_pos : 0 < q.density
  pressure_pos : 0 < q.pressure
  energy_eq : q.energy = q.pressure / (eq.gamma - 1) + (∑ i, q.momentum i ^ 2) / (2 * q.density)
  sound_pos : 0 < q.speedOfSound
  sound_sq : q.speedOfSound ^ 2 * q.density = eq.gamma * q.pressure

/-- A conservative state with positive density and positive internal energy. -/
def GasCons.Admissible (u : GasCons d) : Prop := 0 < u.density ∧ (∑ i, u.momentum i ^ 2) < 2 * u.density * u.energy

/-- A unit vector. -/
def IsUnit' (n : Fin d → ℝ) : Prop := ∑ i, n i ^ 2 = 1

/-- The columns of `R` are orthonormal (`Rᵀ R = 1`). -/
def IsOrtho (R : Fin d → Fin d → ℝ) : Prop := ∀ j k, ∑ i, R i j * R i k = if j = k then 1 else 0

/-- The Euler flux through a unit face with normal `n`: mass, momentum and energy carried with the normal velocity plus pressure forces and work. -/
noncomputable def eulerNormalFlux (q : GasComplete d) (n : Fin d → ℝ) : GasCons d :=
  let un := ∑ i, q.momentum i / q.density * n i
  ⟨q.density * un, fun i => q.momentum i * un + q.pressure * n i, (q.energy + q.pressure) * un⟩

end Fub
