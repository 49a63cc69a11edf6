import Verif.Model.GasMix

/-! Vocabulary for the gas mixture: the relations between the variables of a state, written with the Mach number scaling of the equations. -/

namespace Fub
open Finset
variable {d s t : ℕ}

/-- The members of an equation object fit to each other. -/
structure MixEq.Valid (eq : MixEq) : Prop where
  one_lt : 1 < eq.gamma
  inv : eq.gammaInv = 1 / eq.gamma
  minusOne : eq.gammaMinusOne = eq.gamma - 1
  minusOneInv : eq.gammaMinusOneInv = 1 / (eq.gamma - 1)
  over : eq.gammaOverGammaMinusOne = eq.gamma / (eq.gamma - 1)
  arr : eq.gammaArray = eq.gamma
  msq_pos : 0 < eq.Msq
  msqinv : eq.Msqinv = 1 / eq.Msq

/-- A state of the gas: positive density and pressure, the energy is internal energy plus `Msq` times kinetic energy and the speed of sound is that of a perfect gas. -/
structure IsMixState (eq : MixEq) (q : MixComplete d s t) : Prop where
  density_pos : 0 < q.density
  pressure_pos : 0 < q.pressure
  energy_eq : q.energy = q.pressure / (eq.gamma - 1) + eq.Msq * ((∑ i, q.momentum i ^ 2) / (2 * q.density))
  sound_pos : 0 < q.speedOfSound
  sound_sq : q.speedOfSound ^ 2 * q.density = eq.gamma * q.pressure

/-- Positive density and positive internal energy. -/
def MixCons.Admissible (eq : MixEq) (u : MixCons d s t) : Prop := 0 < u.density ∧ eq.Msq * (∑ i, u.momentum i ^ 2) < 2 * u.density * u.energy

/-- The total enthalpy per mass. -/
noncomputable def MixComplete.totalEnthalpy (q : MixComplete d s t) : ℝ := (q.energy + q.pressure) / q.density

/-- The stagnation pressure: the pressure after an isentropic deceleration to rest. -/
noncomputable def stagnationPressure (eq : MixEq) (q : MixComplete d s t) : ℝ :=
  q.pressure * (1 + (eq.gamma - 1) / 2 * ((∑ i, (q.momentum i / q.density) ^ 2) / q.speedOfSound ^ 2)) ^ (eq.gamma / (eq.gamma - 1))

/-- The mass fractions are not negative and sum up to at most one. -/
def MixComplete.Fractions (q : MixComplete d s t) : Prop := (∀ i, 0 ≤ q.species i) ∧ ∑ i, q.species i ≤ q.density

end Fub
