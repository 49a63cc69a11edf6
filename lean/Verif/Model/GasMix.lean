import Verif.Model.Gas
import Verif.Model.Reconstruct

/-!
# Model of the perfect gas mixture equations

Source: `/repo/include/fub/equations/PerfectGasMix.hpp`, `/repo/src/equations/PerfectGasMix.cpp`, `/repo/include/fub/equations/EulerEquation.hpp`,
`/repo/include/fub/AMReX/boundary_condition/IsentropicPressureExpansion.hpp`, `/repo/src/AMReX/cutcell/boundary_condition/IsentropicPressureBoundary.cpp`.

Simplifications: exact real numbers instead of `double`; an `Array1d` is represented by one of its lanes. The rank is `d + 1`; the code instantiates 1, 2 and 3. The numbers of species `s` and
passive scalars `t` are parameters, as in the code. A failed assertion is `none`.
-/

namespace Fub
open Finset

/-- `PerfectGasConstants`. The members for the non-dimensionalisation that are never used again are left out.
/repo/include/fub/equations/PerfectGasMix.hpp:224-258 -/
structure MixEq where
  Rspec : ℝ
  gamma : ℝ
  gammaInv : ℝ
  gammaMinusOne : ℝ
  gammaMinusOneInv : ℝ
  gammaOverGammaMinusOne : ℝ
  gammaArray : ℝ
  Tref : ℝ
  uref : ℝ
  Msq : ℝ
  Msqinv : ℝ

/-- `ComputeConstants`: aggregate initialisation with `Rspec` and `gamma`, the other members by their default initialisers.
/repo/include/fub/equations/PerfectGasMix.hpp:224-263 -/
noncomputable def computeConstants (Rspec gamma : ℝ) : MixEq :=
  let gammaMinusOne := gamma - 1
  let gammaMinusOneInv := 1 / gammaMinusOne
  let Tref : ℝ := 300
  let uref := Real.sqrt (Rspec * Tref)
  let Msq := uref * uref / (Rspec * Tref)
  { Rspec := Rspec, gamma := gamma, gammaInv := 1 / gamma, gammaMinusOne := gammaMinusOne, gammaMinusOneInv := gammaMinusOneInv,
    gammaOverGammaMinusOne := gamma * gammaMinusOneInv, gammaArray := gamma, Tref := Tref, uref := uref, Msq := Msq, Msqinv := 1 / Msq }

/-- `PerfectGasMixConservative`. /repo/include/fub/equations/PerfectGasMix.hpp:39-50 -/
@[ext] structure MixCons (d s t : ℕ) where
  density : ℝ
  momentum : Fin (d + 1) → ℝ
  energy : ℝ
  species : Fin s → ℝ
  scalars : Fin t → ℝ

/-- `PerfectGasMixComplete`. /repo/include/fub/equations/PerfectGasMix.hpp:182-190 -/
@[ext] structure MixComplete (d s t : ℕ) extends MixCons d s t where
  pressure : ℝ
  speedOfSound : ℝ

/-- `PerfectGasMixKineticState`; there is one mole fraction more than species. /repo/include/fub/equations/PerfectGasMix.hpp:114-146,318-330 -/
@[ext] structure MixKin (s t : ℕ) where
  density : ℝ
  temperature : ℝ
  fractions : Fin (s + 1) → ℝ
  scalars : Fin t → ℝ

variable {d s t : ℕ}

/-- `Flux` with its assertion. /repo/src/equations/PerfectGasMix.cpp:25-43 -/
noncomputable def mixFlux (eq : MixEq) (q : MixComplete d s t) (dir : Fin (d + 1)) : Option (MixCons d s t) :=
  if 0 < q.density then
    let velocity := q.momentum dir / q.density
    some { density := q.momentum dir
           momentum := fun i => velocity * q.momentum i + (if i = dir then q.pressure * eq.Msqinv else 0)
           energy := velocity * (q.energy + q.pressure)
           species := fun i => velocity * q.species i
           scalars := fun i => velocity * q.scalars i }
  else none

/-- `Flux`, array version, one lane. /repo/src/equations/PerfectGasMix.cpp:45-63 -/
noncomputable def mixFluxArray (eq : MixEq) (q : MixComplete d s t) (dir : Fin (d + 1)) : MixCons d s t :=
  let velocity := q.momentum dir / q.density
  { density := q.momentum dir
    momentum := fun i => velocity * q.momentum i + (if i = dir then q.pressure * eq.Msqinv else 0)
    energy := velocity * (q.energy + q.pressure)
    species := fun i => velocity * q.species i
    scalars := fun i => velocity * q.scalars i }

/-- `Flux` with mask, one lane. /repo/src/equations/PerfectGasMix.cpp:65-86 -/
noncomputable def mixFluxMasked (eq : MixEq) (q : MixComplete d s t) (mask : Bool) (dir : Fin (d + 1)) : MixCons d s t :=
  let mask := mask && decide (0 < q.density)
  let density := if mask then q.density else 1
  let velocity := q.momentum dir / density
  { density := q.momentum dir
    momentum := fun i => velocity * q.momentum i + (if i = dir then q.pressure * eq.Msqinv else 0)
    energy := velocity * (q.energy + q.pressure)
    species := fun i => velocity * q.species i
    scalars := fun i => velocity * q.scalars i }

/-- `CompleteFromCons` with its two assertions. `euler::KineticEnergy` is the function of the perfect gas.
/repo/src/equations/PerfectGasMix.cpp:88-108 -/
noncomputable def mixComplete (eq : MixEq) (u : MixCons d s t) : Option (MixComplete d s t) :=
  let eKin := eq.Msq * gasKinetic u.density u.momentum
  if eKin < u.energy then
    let eInt := u.energy - eKin
    let pressure := eInt / eq.gammaMinusOneInv
    if 0 < pressure ∧ 0 < u.density then
      some { u with pressure := pressure, speedOfSound := Real.sqrt (eq.gamma * pressure / u.density) }
    else none
  else none

/-- `CompleteFromCons`, array version, one lane. /repo/src/equations/PerfectGasMix.cpp:110-128 -/
noncomputable def mixCompleteArray (eq : MixEq) (u : MixCons d s t) : MixComplete d s t :=
  let eInt := u.energy - eq.Msq * gasKinetic u.density u.momentum
  let pressure := eInt * eq.gammaMinusOne
  { u with pressure := pressure, speedOfSound := Real.sqrt (eq.gammaArray * pressure / u.density) }

/-- `CompleteFromCons` with mask, one lane. /repo/src/equations/PerfectGasMix.cpp:130-154 -/
noncomputable def mixCompleteMasked (eq : MixEq) (u : MixCons d s t) (mask : Bool) : MixComplete d s t :=
  let mask := mask && decide (0 < u.density)
  let density := if mask then u.density else 0
  let eInt := u.energy - eq.Msq * gasKineticMasked u.density u.momentum mask
  let pressure := if mask then eInt / eq.gammaMinusOneInv else 0
  let safeDensity := if mask then density else 1
  { density := density
    momentum := fun i => if mask then u.momentum i else 0
    energy := if mask then u.energy else 0
    species := fun i => if mask then u.species i else 0
    scalars := fun i => if mask then u.scalars i else 0
    pressure := pressure
    speedOfSound := if mask then Real.sqrt (eq.gammaArray * pressure / safeDensity) else 0 }

/-- `CompleteFromPrim`, scalar and array version. /repo/src/equations/PerfectGasMix.cpp:156-174 and /repo/include/fub/equations/PerfectGasMix.hpp:649-679 -/
noncomputable def mixFromPrim (eq : MixEq) (w : Prim d s t) : MixComplete d s t :=
  let momentum : Fin (d + 1) → ℝ := fun i => w.density * w.velocity i
  { density := w.density
    momentum := momentum
    pressure := w.pressure
    species := fun i => w.density * w.species i
    scalars := fun i => w.density * w.scalars i
    energy := eq.Msq * gasKinetic w.density momentum + w.pressure * eq.gammaMinusOneInv
    speedOfSound := Real.sqrt (eq.gamma * w.pressure / w.density) }

/-- `PrimFromComplete`, scalar and array version. /repo/include/fub/equations/PerfectGasMix.hpp:681-712 -/
noncomputable def mixPrim (q : MixComplete d s t) : Prim d s t :=
  { density := q.density
    pressure := q.pressure
    velocity := fun i => q.momentum i / q.density
    species := fun i => q.species i / q.density
    scalars := fun i => q.scalars i / q.density }

/-- `Temperature`. /repo/src/equations/PerfectGasMix.cpp:199-209 -/
noncomputable def mixTemperature (q : MixComplete d s t) : ℝ := q.pressure / q.density

/-- `Velocity`. /repo/src/equations/PerfectGasMix.cpp:176-191 -/
noncomputable def mixVelocity (q : MixCons d s t) : Fin (d + 1) → ℝ := fun i => q.momentum i / q.density

/-- `euler::InternalEnergy` of a conservative or complete state. /repo/include/fub/equations/PerfectGasMix.hpp:372-380 -/
noncomputable def mixInternalEnergy (eq : MixEq) (q : MixCons d s t) : ℝ := (q.energy - eq.Msq * gasKinetic q.density q.momentum) / q.density

/-- `euler::Pressure` of a conservative state. /repo/include/fub/equations/PerfectGasMix.hpp:566-570 -/
noncomputable def mixPressureOfCons (eq : MixEq) (q : MixCons d s t) : ℝ := (q.energy - gasKinetic q.density q.momentum) * eq.gammaMinusOne

/-- `euler::InternalEnergy` of a kinetic state. /repo/include/fub/equations/PerfectGasMix.hpp:382-397 -/
noncomputable def kinInternalEnergy (eq : MixEq) (k : MixKin s t) : ℝ := eq.gammaMinusOneInv * k.temperature

/-- `euler::CompleteFromKineticState`. /repo/include/fub/equations/PerfectGasMix.hpp:399-417 -/
noncomputable def mixFromKin (eq : MixEq) (k : MixKin s t) (u : Fin (d + 1) → ℝ) : MixComplete d s t :=
  let e := kinInternalEnergy eq k
  let RT := k.temperature
  let sum := ∑ i, k.fractions i
  { density := k.density
    momentum := fun i => k.density * u i
    energy := k.density * (e + 1 / 2 * ∑ i, u i * u i)
    pressure := RT * k.density
    speedOfSound := Real.sqrt (eq.gamma * RT)
    species := fun i => k.density * k.fractions i.castSucc / sum
    scalars := fun i => k.density * k.scalars i }

/-- `euler::CompleteFromKineticState`, array version, one lane. /repo/include/fub/equations/PerfectGasMix.hpp:714-737 -/
noncomputable def mixFromKinArray (eq : MixEq) (k : MixKin s t) (u : Fin (d + 1) → ℝ) : MixComplete d s t :=
  let momentum : Fin (d + 1) → ℝ := fun i => k.density * u i
  let e := kinInternalEnergy eq k
  let RT := k.temperature
  let sum := ∑ i, k.fractions i
  { density := k.density
    momentum := momentum
    energy := k.density * e + eq.Msq * gasKinetic k.density momentum
    pressure := RT * k.density
    speedOfSound := Real.sqrt (eq.gamma * RT)
    species := fun i => k.density * k.fractions i.castSucc / sum
    scalars := fun i => k.density * k.scalars i }

/-- `euler::KineticStateFromComplete`. /repo/include/fub/equations/PerfectGasMix.hpp:419-433 -/
noncomputable def kinFromMix (q : MixComplete d s t) : MixKin s t :=
  let sum := ∑ i, q.species i / q.density
  { density := q.density
    temperature := mixTemperature q
    fractions := Fin.snoc (α := fun _ => ℝ) (fun i => q.species i / q.density) (max 0 (1 - sum))
    scalars := fun i => q.scalars i / q.density }

/-- `euler::KineticStateFromComplete`, array version, one lane, with its assertion (exact instead of approximate comparison).
/repo/include/fub/equations/PerfectGasMix.hpp:747-770 -/
noncomputable def kinFromMixArray (q : MixComplete d s t) : Option (MixKin s t) :=
  let clamped : Fin s → ℝ := fun i => max (q.species i / q.density) 0
  let all : Fin (s + 1) → ℝ := Fin.snoc (α := fun _ => ℝ) clamped (max (1 - ∑ i, clamped i) 0)
  let sum := ∑ i, all i
  let fractions : Fin (s + 1) → ℝ := fun i => all i / sum
  if ∑ i, fractions i = 1 then
    some { density := q.density
           temperature := mixTemperature q
           fractions := fractions
           scalars := fun i => q.scalars i / q.density }
  else none

/-- `euler::SetVelocity` of a conservative or complete state. /repo/include/fub/equations/PerfectGasMix.hpp:475-487 -/
noncomputable def mixSetVelocity (q : MixComplete d s t) (v : Fin (d + 1) → ℝ) : MixComplete d s t :=
  let old := gasKinetic q.density q.momentum
  let momentum : Fin (d + 1) → ℝ := fun i => q.density * v i
  let new := gasKinetic q.density momentum
  { q with momentum := momentum, energy := q.energy + (new - old) }

/-- `Reflect` of a complete state. /repo/src/equations/PerfectGasMix.cpp:279-332 -/
def mixReflect (n : Fin (d + 1) → ℝ) (q : MixComplete d s t) : MixComplete d s t := { q with momentum := reflectVec n q.momentum }

/-- `Rotate` of a complete state. /repo/src/equations/PerfectGasMix.cpp:230-245,262-277 -/
def mixRotate (R : Fin (d + 1) → Fin (d + 1) → ℝ) (q : MixComplete d s t) : MixComplete d s t := { q with momentum := rotateVec R q.momentum }

/-- The sign `(x > 0) - (x < 0)`. Serves the model of /repo/include/fub/equations/PerfectGasMix.hpp:589-640. -/
noncomputable def sgn (x : ℝ) : ℝ := if 0 < x then 1 else if x < 0 then -1 else 0

/-- `euler::SetIsentropicPressure`. /repo/include/fub/equations/PerfectGasMix.hpp:589-640 -/
noncomputable def setIsentropicPressure (eq : MixEq) (q0 : MixComplete d s t) (pNew : ℝ) : MixComplete d s t :=
  let rhoOld := q0.density
  let pOld := q0.pressure
  let TOld := mixTemperature q0
  let uOld := mixVelocity q0.toMixCons
  let c := q0.speedOfSound
  let c2 := c * c
  let Ma2 := (∑ i, uOld i * uOld i) / c2
  let alpha := 1 + 1 / 2 * Ma2 * eq.gammaMinusOne
  let rho0 := rhoOld * alpha ^ eq.gammaMinusOneInv
  let p0 := pOld * alpha ^ (eq.gamma * eq.gammaMinusOneInv)
  let T0 := TOld * alpha
  let rhoNew := rho0 * (pNew / p0) ^ eq.gammaInv
  let TNew := pNew / rhoNew
  let u2New := 2 * eq.gammaOverGammaMinusOne * (T0 - TNew)
  let uNew : Fin (d + 1) → ℝ := fun i => if i = 0 then sgn u2New * Real.sqrt |u2New| else 0
  let rhouNew : Fin (d + 1) → ℝ := fun i => rhoNew * uNew i
  { density := rhoNew
    momentum := rhouNew
    energy := pNew * eq.gammaMinusOneInv + gasKinetic rhoNew rhouNew
    species := q0.species
    scalars := q0.scalars
    pressure := pNew
    speedOfSound := Real.sqrt (eq.gamma * pNew / rhoNew) }

/-- `euler::IsentropicExpansionWithoutDissipation`, the version for equations with `SetIsentropicPressure`. The assertion `e_kin_new >= 0` cannot fail for a non-negative
efficiency and is left out. /repo/include/fub/equations/EulerEquation.hpp:280-325 -/
noncomputable def isentropicExpansion (eq : MixEq) (src : MixComplete d s t) (pDest efficiency : ℝ) : MixComplete d s t :=
  let vOld := mixVelocity src.toMixCons
  let rhoEkin := gasKinetic src.density src.momentum
  let dest : MixComplete d s t := { src with momentum := fun _ => 0, energy := src.energy - rhoEkin }
  let hBefore := (dest.energy + dest.pressure) / dest.density
  let dest := setIsentropicPressure eq dest pDest
  let hAfter := (dest.energy + dest.pressure) / dest.density
  let hDiff := hBefore - hAfter
  let eKinNew := 2 * efficiency * |hDiff| + ∑ i, vOld i * vOld i
  let sign : ℝ := if 0 ≤ hDiff then 1 else -1
  let momentum : Fin (d + 1) → ℝ := fun i => if i = 0 then dest.density * (sign * Real.sqrt eKinNew) else dest.momentum i
  { dest with momentum := momentum, energy := dest.energy + gasKinetic dest.density momentum }

/-- `cutcell::ExpandState` of the boundary `cutcell::IsentropicPressureExpansion`.
/repo/include/fub/AMReX/cutcell/boundary_condition/IsentropicPressureExpansion.hpp:67-86 -/
noncomputable def mixExpandState (eq : MixEq) (src : MixComplete d s t) (pDest efficiency : ℝ) : MixComplete d s t :=
  let vOld := mixVelocity src.toMixCons
  let dest := mixSetVelocity src fun _ => 0
  let hBefore := (dest.energy + dest.pressure) / dest.density
  let dest := setIsentropicPressure eq dest pDest
  let hAfter := (dest.energy + dest.pressure) / dest.density
  let hDiff := hBefore - hAfter
  let eKin := efficiency * hDiff * 2 + vOld 0 * vOld 0
  let sign : ℝ := if 0 ≤ eKin then 1 else -1
  mixSetVelocity dest fun i => if i = 0 then sign * Real.sqrt |eKin| else vOld i

/-- `perfect_gas::IsentropicExpansionWithoutDissipation_`; a failed assertion and the division by a zero velocity are `none`.
/repo/src/AMReX/cutcell/boundary_condition/IsentropicPressureBoundary.cpp:167-195 -/
noncomputable def gasIsentropicExpansion (eq : GasEq) (q : GasComplete d) (outerPressure efficiency : ℝ) : Option (GasComplete d) :=
  if 0 < q.density ∧ 0 < q.pressure ∧ 0 < eq.Rspec then
    let R := eq.Rspec
    let temperatureOld := q.pressure / q.density / R
    let exponent := (eq.gamma - 1) / eq.gamma
    let temperatureNew := (outerPressure / q.pressure) ^ exponent * temperatureOld
    let densityNew := outerPressure / temperatureNew / R
    let hOld := q.pressure * (1 + eq.gammaMinus1Inv) / q.density
    let hNew := outerPressure * (1 + eq.gammaMinus1Inv) / densityNew
    let diff := hOld - hNew
    let uOld := gasVelocity q
    let uOldNorm := ∑ i, uOld i * uOld i
    let uBorder := sgn diff * Real.sqrt (efficiency * |diff| * 2 + uOldNorm)
    if uOldNorm = 0 then none
    else some (gasFromPrim eq ⟨densityNew, fun i => uBorder / uOldNorm * uOld i, outerPressure⟩)
  else none

end Fub
