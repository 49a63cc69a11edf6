import Verif.Model.Limiter
import Mathlib.Analysis.SpecialFunctions.Sqrt
import Mathlib.Data.Fin.Basic

/-!
Gradients and reconstruction in primitive and in characteristic variables for the Euler equations (perfect gas and perfect gas mixture). The functions are modelled
between the primitive states: `PrimFromComplete` at the begin and `CompleteFromPrim` at the end are modelled with the equations (Verif/Model/Gas.lean and
Verif/Model/GasMix.lean). The rank is `d + 1`. `Msq` is `euler::MaSq(equation)`: one for `PerfectGas`, a member for `PerfectGasMix`.
-/

namespace Fub

/-- `Primitive<Equation>`: density, velocity, pressure, mass fractions and passive scalars (the last two are empty for `PerfectGas`), and slopes of these.
/repo/include/fub/equations/PerfectGasMix.hpp:79-92 -/
@[ext] structure Prim (d s t : ℕ) where
  /-- density -/
  density : ℝ
  /-- velocity -/
  velocity : Fin (d + 1) → ℝ
  /-- pressure -/
  pressure : ℝ
  /-- mass fractions -/
  species : Fin s → ℝ
  /-- passive scalars -/
  scalars : Fin t → ℝ

/-- `Characteristics<Equation>`. Serves the model of /repo/include/fub/flux_method/Gradient.hpp:293-320. -/
@[ext] structure Chars (d s t : ℕ) where
  /-- amplitude of the left running sound wave -/
  minus : ℝ
  /-- entropy wave (index 0) and shear waves -/
  zero : Fin (d + 1) → ℝ
  /-- amplitude of the right running sound wave -/
  plus : ℝ
  /-- mass fractions -/
  species : Fin s → ℝ
  /-- passive scalars -/
  scalars : Fin t → ℝ

variable {d s t : ℕ}

/-- `sign = (side == Side::Upper) - (side == Side::Lower)`. /repo/include/fub/flux_method/Reconstruct.hpp:226 -/
def sideSign (upper : Bool) : ℝ := if upper then 1 else -1

/-- The difference quotient of two primitive states. /repo/include/fub/flux_method/Gradient.hpp:269-274 -/
noncomputable def primSlope (dx : ℝ) (left right : Prim d s t) : Prim d s t :=
  ⟨(right.density - left.density) / dx, fun i => (right.velocity i - left.velocity i) / dx, (right.pressure - left.pressure) / dx,
    fun i => (right.species i - left.species i) / dx, fun i => (right.scalars i - left.scalars i) / dx⟩

/-- `PrimitiveGradient::ComputeGradient`. /repo/include/fub/flux_method/Gradient.hpp:263-276 (array version 278-291) -/
noncomputable def primGradient (limiter : ℝ → ℝ) (wL wM wR : Prim d s t) (dx : ℝ) : Prim d s t :=
  let l := primSlope dx wL wM
  let r := primSlope dx wM wR
  ⟨centralGradient limiter l.density r.density, fun i => centralGradient limiter (l.velocity i) (r.velocity i), centralGradient limiter l.pressure r.pressure,
    fun i => centralGradient limiter (l.species i) (r.species i), fun i => centralGradient limiter (l.scalars i) (r.scalars i)⟩

/-- `ComputeAmplitudes`; `zero[i]` belongs to the velocity with index `(ix + i) % Rank`. /repo/include/fub/flux_method/Gradient.hpp:293-320 (array version 322-352) -/
noncomputable def amplitudes (Msq : ℝ) (left right : Prim d s t) (rhoc ooc2 dx : ℝ) (ix : Fin (d + 1)) : Chars d s t :=
  let M := Real.sqrt Msq
  let dp := (right.pressure - left.pressure) / dx
  let du := (right.velocity ix - left.velocity ix) / dx
  let drho := (right.density - left.density) / dx
  { minus := dp - M * rhoc * du
    plus := dp + M * rhoc * du
    zero := fun i => if i = 0 then drho - ooc2 * dp else (right.velocity (ix + i) - left.velocity (ix + i)) / dx
    species := fun i => (right.species i - left.species i) / dx
    scalars := fun i => (right.scalars i - left.scalars i) / dx }

/-- `CharacteristicsGradient::ComputeGradient`; `rho` and `c` are density and speed of sound of the middle state.
/repo/include/fub/flux_method/Gradient.hpp:370-384 (array version 354-368) -/
noncomputable def charGradient (limiter : ℝ → ℝ) (Msq : ℝ) (wL wM wR : Prim d s t) (c dx : ℝ) (ix : Fin (d + 1)) : Chars d s t :=
  let ooc2 := 1 / (c * c)
  let rhoc := wM.density * c
  let l := amplitudes Msq wL wM rhoc ooc2 dx ix
  let r := amplitudes Msq wM wR rhoc ooc2 dx ix
  ⟨centralGradient limiter l.minus r.minus, fun i => centralGradient limiter (l.zero i) (r.zero i), centralGradient limiter l.plus r.plus,
    fun i => centralGradient limiter (l.species i) (r.species i), fun i => centralGradient limiter (l.scalars i) (r.scalars i)⟩

/-- `PrimitiveReconstruction::Reconstruct`; `a` is the speed of sound of the cell. The loop over the other velocities is written as a case distinction.
/repo/include/fub/flux_method/Reconstruct.hpp:220-269 (array version 353-404) -/
noncomputable def primReconstruct (a : ℝ) (w dw : Prim d s t) (dt dx : ℝ) (ix : Fin (d + 1)) (upper : Bool) : Prim d s t :=
  let sign := sideSign upper
  let lambda := sign * dt / dx
  let dxHalf := sign * (1 / 2) * dx
  let u := w.velocity ix
  let rho := w.density
  let a2 := a * a
  let rhoA2 := rho * a2
  { density := w.density + dxHalf * (dw.density - lambda * (u * dw.density + rho * dw.velocity ix))
    pressure := w.pressure + dxHalf * (dw.pressure - lambda * (rhoA2 * dw.velocity ix + u * dw.pressure))
    velocity := fun i =>
      if i = ix then w.velocity ix + dxHalf * (dw.velocity ix - lambda * (u * dw.velocity ix + dw.pressure / rho))
      else w.velocity i + dxHalf * (dw.velocity i - lambda * u * dw.velocity i)
    species := fun i => w.species i + dxHalf * (dw.species i - lambda * u * dw.species i)
    scalars := fun i => w.scalars i + dxHalf * (dw.scalars i - lambda * u * dw.scalars i) }

/-- `PrimitiveReconstruction::ReconstructInvers`; `none` if one of the assertions fails or the code divides by zero. `w` is the primitive state of `rec`.
/repo/include/fub/flux_method/Reconstruct.hpp:271-351 -/
noncomputable def primReconstructInvers (gamma : ℝ) (w dw : Prim d s t) (dt dx : ℝ) (ix : Fin (d + 1)) (upper : Bool) : Option (Prim d s t) :=
  let sign := sideSign upper
  let eta := sign * (1 / 2) * dx
  let tau := 1 / 2 * dt
  let lambda := sign * dt / dx
  let uL := w.velocity ix
  let rhoL := w.density
  let pL := w.pressure
  let du := dw.velocity ix
  let drho := dw.density
  let dp := dw.pressure
  let f1 := 1 - tau * du
  let fg := 1 - gamma * tau * du
  if f1 = 0 ∨ fg = 0 then none
  else
    let u : Option ℝ :=
      if dp = 0 then some ((uL - eta * du) / f1)
      else
        let A := f1 * tau * drho
        let B := f1 * (rhoL - eta * drho) + tau * drho * (uL - eta * du)
        let C := -((rhoL - eta * drho) * (uL - eta * du) + tau * dp * f1)
        let D := B * B - 4 * A * C
        if D < 0 ∨ A = 0 then none else some (1 / 2 * (-B + Real.sqrt D) / A)
    u.map fun u =>
      { density := (rhoL - eta * (1 - lambda * u) * drho) / f1
        pressure := (pL - eta * (1 - lambda * u) * dp) / fg
        velocity := fun i => if i = ix then u else w.velocity i - eta * (dw.velocity i - lambda * u * dw.velocity i)
        species := fun i => w.species i - eta * (dw.species i - lambda * u * dw.species i)
        scalars := fun i => w.scalars i - eta * (dw.scalars i + lambda * u * dw.scalars i) }

/-- `CharacteristicsReconstruction::Reconstruct`, scalar version. The loops `velocity[(ix + i) % Rank] = zero[i]` are written as a function of the index `j` of the
velocity, with `i = j - ix` modulo the rank. /repo/include/fub/flux_method/Reconstruct.hpp:406-457 -/
noncomputable def charReconstruct (Msq c : ℝ) (w : Prim d s t) (dK : Chars d s t) (dt dx : ℝ) (ix : Fin (d + 1)) (upper : Bool) : Prim d s t :=
  let Minv := 1 / Msq
  let u := w.velocity ix
  let sign := sideSign upper
  let lambda := sign * dt / dx
  let dxHalf := sign * (1 / 2) * dx
  let minus := dxHalf * dK.minus * (1 - lambda * (u - c * Minv))
  let plus := dxHalf * dK.plus * (1 - lambda * (u + c * Minv))
  let zero : Fin (d + 1) → ℝ := fun i => dxHalf * dK.zero i * (1 - lambda * u)
  let rhoc := w.density * c
  let c2 := c * c
  let dpressure := 1 / 2 * (minus + plus)
  { pressure := w.pressure + dpressure
    density := w.density + (dpressure / c2 + zero 0)
    velocity := fun j => w.velocity j + (if j = ix then 1 / 2 * (plus - minus) * Minv / rhoc else zero (j - ix))
    species := fun i => w.species i + dxHalf * dK.species i * (1 - lambda * u)
    scalars := fun i => w.scalars i + dxHalf * dK.scalars i * (1 - lambda * u) }

/-- `CharacteristicsReconstruction::Reconstruct`, array version, one lane; the Mach number does not occur. /repo/include/fub/flux_method/Reconstruct.hpp:459-516 -/
noncomputable def charReconstructArray (c : ℝ) (w : Prim d s t) (dK : Chars d s t) (dt dx : ℝ) (ix : Fin (d + 1)) (upper : Bool) : Prim d s t :=
  let u := w.velocity ix
  let sign := sideSign upper
  let lambda := sign * dt / dx
  let dxHalf := sign * (1 / 2) * dx
  let minus := dxHalf * dK.minus * (1 - lambda * (u - c))
  let plus := dxHalf * dK.plus * (1 - lambda * (u + c))
  let zero : Fin (d + 1) → ℝ := fun i => dxHalf * dK.zero i * (1 - lambda * u)
  let rhoc := w.density * c
  let c2 := c * c
  let dpressure := 1 / 2 * (minus + plus)
  { pressure := w.pressure + dpressure
    density := w.density + (dpressure / c2 + zero 0)
    velocity := fun j => w.velocity j + (if j = ix then 1 / 2 * (plus - minus) / rhoc else zero (j - ix))
    species := fun i => w.species i + dxHalf * dK.species i * (1 - lambda * u)
    scalars := fun i => w.scalars i + dxHalf * dK.scalars i * (1 - lambda * u) }

end Fub
