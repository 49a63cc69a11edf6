import Verif.Model.ShallowWater

/-! What the shallow water equations demand: the physical flux, shocks and rarefaction waves. -/

namespace Fub

/-- Velocity in direction `i`. -/
noncomputable def SwState.vel (q : SwState) (i : Fin 2) : ℝ := q.momentum i / q.height

/-- Celerity of gravity waves. -/
noncomputable def SwState.cel (g : ℝ) (q : SwState) : ℝ := Real.sqrt (g * q.height)

/-- The flux of the shallow water equations in direction `dir`: height is transported with the momentum, momentum with the velocity, and the
hydrostatic pressure acts in direction `dir`. -/
noncomputable def swPhysFlux (g : ℝ) (q : SwState) (dir : Fin 2) : SwVar → ℝ
  | .height => q.height * q.vel dir
  | .momentum i => q.momentum i * q.vel dir + if i = dir then g * q.height ^ 2 / 2 else 0

/-- Two states with the same height, normal velocity and transverse velocity of another state. -/
noncomputable def SwState.mk' (dir : Fin 2) (h u v : ℝ) : SwState := ⟨h, fun i => if i = dir then h * u else h * v⟩

/-- A shock of the first family (moving left relative to the water) with speed `s` from `L` to `M`: jump conditions for all components and
Lax's entropy condition. -/
def IsSwShock1 (g : ℝ) (dir : Fin 2) (L M : SwState) (s : ℝ) : Prop :=
  (∀ v, swPhysFlux g M dir v - swPhysFlux g L dir v = s * (M.get v - L.get v)) ∧
  M.vel dir - M.cel g < s ∧ s < L.vel dir - L.cel g

/-- A shock of the second family with speed `s` from `M` to `R`. -/
def IsSwShock2 (g : ℝ) (dir : Fin 2) (M R : SwState) (s : ℝ) : Prop :=
  (∀ v, swPhysFlux g R dir v - swPhysFlux g M dir v = s * (R.get v - M.get v)) ∧
  R.vel dir + R.cel g < s ∧ s < M.vel dir + M.cel g

/-- A rarefaction of the first family from `L` to `M`: the Riemann invariants `u + 2c` and `v` are constant and the wave opens. -/
def IsSwRar1 (g : ℝ) (dir : Fin 2) (L M : SwState) : Prop :=
  M.vel dir + 2 * M.cel g = L.vel dir + 2 * L.cel g ∧ M.vel (dir + 1) = L.vel (dir + 1) ∧ L.vel dir - L.cel g ≤ M.vel dir - M.cel g

/-- A rarefaction of the second family from `M` to `R`. -/
def IsSwRar2 (g : ℝ) (dir : Fin 2) (M R : SwState) : Prop :=
  M.vel dir - 2 * M.cel g = R.vel dir - 2 * R.cel g ∧ M.vel (dir + 1) = R.vel (dir + 1) ∧ M.vel dir + M.cel g ≤ R.vel dir + R.cel g

end Fub
