import Verif.Spec.Gas

/-!
# Waves of the Euler equations of a perfect gas

Shocks, rarefactions and contact discontinuities between two states, and the value of such a wave along a ray `x = lam * t`. The sign `σ` selects the family:
`σ = -1` is the wave with speeds `u - a` that the left state `Q` sends into the middle, `σ = 1` the wave with speeds `u + a` that belongs to the right state `Q`.
-/

namespace Fub
variable {d : ℕ}

/-- Velocity. -/
noncomputable def GasComplete.vel (q : GasComplete d) (i : Fin d) : ℝ := q.momentum i / q.density

/-- Unit vector of a coordinate direction. -/
def unitVec (dir : Fin d) : Fin d → ℝ := fun i => if i = dir then 1 else 0

/-- The Rankine–Hugoniot conditions: across the jump the fluxes of mass, momentum and energy differ by `s` times the difference of the states. -/
def RankineHugoniot (dir : Fin d) (A B : GasComplete d) (s : ℝ) : Prop :=
  (eulerNormalFlux A (unitVec dir)).density - (eulerNormalFlux B (unitVec dir)).density = s * (A.density - B.density) ∧
  (∀ i, (eulerNormalFlux A (unitVec dir)).momentum i - (eulerNormalFlux B (unitVec dir)).momentum i = s * (A.momentum i - B.momentum i)) ∧
  (eulerNormalFlux A (unitVec dir)).energy - (eulerNormalFlux B (unitVec dir)).energy = s * (A.energy - B.energy)

/-- A shock with speed `s` between the outer state `Q` and the inner state `M`: jump conditions and the entropy conditions of Lax. -/
def IsGasShock (dir : Fin d) (σ : ℝ) (Q M : GasComplete d) (s : ℝ) : Prop :=
  RankineHugoniot dir M Q s ∧ σ * (Q.vel dir + σ * Q.speedOfSound) < σ * s ∧ σ * s < σ * (M.vel dir + σ * M.speedOfSound)

/-- Entropy, tangential velocities and the Riemann invariant of the family agree. -/
def SameInvariants (eq : GasEq) (dir : Fin d) (σ : ℝ) (Q M : GasComplete d) : Prop :=
  M.pressure * Q.density ^ eq.gamma = Q.pressure * M.density ^ eq.gamma ∧ (∀ i, i ≠ dir → M.vel i = Q.vel i) ∧
  M.vel dir - σ * (2 / (eq.gamma - 1) * M.speedOfSound) = Q.vel dir - σ * (2 / (eq.gamma - 1) * Q.speedOfSound)

/-- A rarefaction between `Q` and `M`: the invariants are constant and the head is faster than the tail. -/
def IsGasRar (eq : GasEq) (dir : Fin d) (σ : ℝ) (Q M : GasComplete d) : Prop :=
  SameInvariants eq dir σ Q M ∧ σ * (M.vel dir + σ * M.speedOfSound) ≤ σ * (Q.vel dir + σ * Q.speedOfSound)

/-- A contact discontinuity: pressure and normal velocity agree. -/
def IsGasContact (dir : Fin d) (A B : GasComplete d) : Prop :=
  A.pressure = B.pressure ∧ A.vel dir = B.vel dir ∧ RankineHugoniot dir A B (A.vel dir)

/-- There is a wave of the family `σ` between `Q` and `M`, and `q` is its value along the ray with speed `lam`. On the path of a shock both sides are allowed. -/
def IsGasWaveValue (eq : GasEq) (dir : Fin d) (σ lam : ℝ) (Q M q : GasComplete d) : Prop :=
  (∃ s, IsGasShock dir σ Q M s ∧ (σ * s < σ * lam → q = Q) ∧ (σ * lam < σ * s → q = M) ∧ (lam = s → q = Q ∨ q = M)) ∨
  (IsGasRar eq dir σ Q M ∧
    (σ * (Q.vel dir + σ * Q.speedOfSound) < σ * lam → q = Q) ∧
    (σ * lam < σ * (M.vel dir + σ * M.speedOfSound) → q = M) ∧
    (σ * (M.vel dir + σ * M.speedOfSound) ≤ σ * lam → σ * lam ≤ σ * (Q.vel dir + σ * Q.speedOfSound) →
      IsGasState eq q ∧ SameInvariants eq dir σ Q q ∧ q.vel dir + σ * q.speedOfSound = lam))

end Fub
