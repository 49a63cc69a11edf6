import Verif.Model.Flux
import Mathlib.Analysis.SpecialFunctions.Pow.Real
import Mathlib.Algebra.BigOperators.Fin

/-!
# Model of the perfect gas equations

Source: `/repo/src/equations/PerfectGas.cpp`, `/repo/include/fub/equations/PerfectGas.hpp`,
`/repo/src/equations/perfect_gas/EinfeldtSignalVelocities.hpp`.

Simplifications: exact real numbers instead of `double`; an `Array1d` is represented by one of its lanes, a `MaskArray` by one `Bool`.
The rank is a parameter `d`; the code instantiates 1, 2 and 3. A failed assertion is `none`.
A division by zero is only evaluated where a comment says so.
-/

namespace Fub

open Finset

/-- `PerfectGas<N>` data members; `gamma_minus_1_inv` is a member of its own that users can change independently of `gamma`.
/repo/include/fub/equations/PerfectGas.hpp:216-222. The array members hold the same numbers in every lane. -/
structure GasEq where
  Rspec : ℝ
  gamma : ℝ
  gammaMinus1Inv : ℝ
  gammaArray : ℝ
  gammaMinus1InvArray : ℝ

/-- The default member initialisers with another `gamma` and `Rspec`. /repo/include/fub/equations/PerfectGas.hpp:216-222 -/
noncomputable def GasEq.new (Rspec gamma : ℝ) : GasEq := ⟨Rspec, gamma, 1 / (gamma - 1), gamma, 1 / (gamma - 1)⟩

/-- `PerfectGasConservative`. /repo/include/fub/equations/PerfectGas.hpp:40-45 -/
@[ext] structure GasCons (d : ℕ) where
  density : ℝ
  momentum : Fin d → ℝ
  energy : ℝ

/-- `PerfectGasComplete`. /repo/include/fub/equations/PerfectGas.hpp:132-137 -/
@[ext] structure GasComplete (d : ℕ) where
  density : ℝ
  momentum : Fin d → ℝ
  energy : ℝ
  pressure : ℝ
  speedOfSound : ℝ

/-- `PerfectGasPrimitive`. /repo/include/fub/equations/PerfectGas.hpp:73-78 -/
@[ext] structure GasPrim (d : ℕ) where
  density : ℝ
  velocity : Fin d → ℝ
  pressure : ℝ

variable {d : ℕ}

/-- `AsCons`. /repo/include/fub/State.hpp:446-463 -/
def GasComplete.cons (q : GasComplete d) : GasCons d := ⟨q.density, q.momentum, q.energy⟩

/-- `KineticEnergy`, scalar and array version. /repo/src/equations/PerfectGas.cpp:25-37 -/
noncomputable def gasKinetic (density : ℝ) (momentum : Fin d → ℝ) : ℝ := 1 / 2 * (∑ i, momentum i * momentum i) / density

/-- `KineticEnergy` with mask, one lane. /repo/src/equations/PerfectGas.cpp:39-49 -/
noncomputable def gasKineticMasked (density : ℝ) (momentum : Fin d → ℝ) (mask : Bool) : ℝ :=
  let mask := mask && decide (0 < density)
  let safeDensity := if mask then density else 1
  1 / 2 * (∑ i, momentum i * momentum i) / safeDensity

/-- `PerfectGas::Flux`; the assertion `density > 0` of the scalar version (line 55) is `none`. /repo/src/equations/PerfectGas.cpp:52-64 -/
noncomputable def gasFlux (q : GasComplete d) (dir : Fin d) : Option (GasCons d) :=
  if 0 < q.density then
    let velocity := q.momentum dir / q.density
    some { density := q.momentum dir
           momentum := fun i => velocity * q.momentum i + (if i = dir then q.pressure else 0)
           energy := velocity * (q.energy + q.pressure) }
  else none

/-- `PerfectGas::Flux`, array version, one lane. /repo/src/equations/PerfectGas.cpp:66-77 -/
noncomputable def gasFluxArray (q : GasComplete d) (dir : Fin d) : GasCons d :=
  let velocity := q.momentum dir / q.density
  { density := q.momentum dir
    momentum := fun i => velocity * q.momentum i + (if i = dir then q.pressure else 0)
    energy := velocity * (q.energy + q.pressure) }

/-- `PerfectGas::Flux` with mask, one lane. Masked-out lanes are computed with density one, they are not zero.
/repo/src/equations/PerfectGas.cpp:79-93 -/
noncomputable def gasFluxMasked (q : GasComplete d) (mask : Bool) (dir : Fin d) : GasCons d :=
  let mask := mask && decide (0 < q.density)
  let density := if mask then q.density else 1
  let velocity := q.momentum dir / density
  { density := q.momentum dir
    momentum := fun i => velocity * q.momentum i + (if i = dir then q.pressure else 0)
    energy := velocity * (q.energy + q.pressure) }

/-- `CompleteFromCons`, array version, one lane. /repo/src/equations/PerfectGas.cpp:112-124 -/
noncomputable def gasCompleteArray (eq : GasEq) (u : GasCons d) : GasComplete d :=
  let eInt := u.energy - gasKinetic u.density u.momentum
  let pressure := eInt / eq.gammaMinus1Inv
  ⟨u.density, u.momentum, u.energy, pressure, Real.sqrt (eq.gammaArray * pressure / u.density)⟩

/-- `CompleteFromCons`, scalar version with its two assertions. /repo/src/equations/PerfectGas.cpp:96-110 -/
noncomputable def gasComplete (eq : GasEq) (u : GasCons d) : Option (GasComplete d) :=
  let eKin := gasKinetic u.density u.momentum
  if eKin < u.energy then
    let eInt := u.energy - eKin
    let pressure := eInt / eq.gammaMinus1Inv
    if 0 < pressure ∧ 0 < u.density then
      some ⟨u.density, u.momentum, u.energy, pressure, Real.sqrt (eq.gamma * pressure / u.density)⟩
    else none
  else none

/-- `CompleteFromCons` with mask, one lane. /repo/src/equations/PerfectGas.cpp:126-144 -/
noncomputable def gasCompleteMasked (eq : GasEq) (u : GasCons d) (mask : Bool) : GasComplete d :=
  let mask := mask && decide (0 < u.density)
  let density := if mask then u.density else 0
  let eInt := u.energy - gasKineticMasked u.density u.momentum mask
  let pressure := if mask then eInt / eq.gammaMinus1Inv else 0
  let safeDensity := if mask then density else 1
  { density := density
    momentum := fun i => if mask then u.momentum i else 0
    energy := if mask then u.energy else 0
    pressure := pressure
    speedOfSound := if mask then Real.sqrt (eq.gammaArray * pressure / safeDensity) else 0 }

/-- `CompleteFromPrim`. /repo/src/equations/PerfectGas.cpp:146-158 -/
noncomputable def gasFromPrim (eq : GasEq) (w : GasPrim d) : GasComplete d :=
  let momentum : Fin d → ℝ := fun i => w.density * w.velocity i
  ⟨w.density, momentum, gasKinetic w.density momentum + w.pressure * eq.gammaMinus1Inv, w.pressure,
    Real.sqrt (eq.gamma * w.pressure / w.density)⟩

/-- `CompleteFromPrim`, array version, one lane. /repo/src/equations/PerfectGas.cpp:160-174 -/
noncomputable def gasFromPrimArray (eq : GasEq) (w : GasPrim d) : GasComplete d :=
  let momentum : Fin d → ℝ := fun i => w.density * w.velocity i
  ⟨w.density, momentum, gasKinetic w.density momentum + w.pressure * eq.gammaMinus1InvArray, w.pressure,
    Real.sqrt (eq.gammaArray * w.pressure / w.density)⟩

/-- `CompleteFromPrim` with mask, one lane. On masked-out lanes the quotient `q.pressure / q.density` of line 189 is 0/0 but not selected.
/repo/src/equations/PerfectGas.cpp:176-191 -/
noncomputable def gasFromPrimMasked (eq : GasEq) (w : GasPrim d) (mask : Bool) : GasComplete d :=
  let density := if mask then w.density else 0
  let momentum : Fin d → ℝ := fun i => if mask then w.density * w.velocity i else 0
  let pressure := if mask then w.pressure else 0
  let eKin := if mask then gasKinetic w.density momentum else 0
  ⟨density, momentum, eKin + pressure * eq.gammaMinus1InvArray, pressure,
    Real.sqrt (if mask then eq.gammaArray * pressure / density else 0)⟩

/-- `Velocity`. /repo/src/equations/PerfectGas.cpp:193-208 -/
noncomputable def gasVelocity (q : GasComplete d) : Fin d → ℝ := fun i => q.momentum i / q.density

/-- `PrimFromComplete` for the perfect gas: density, velocity and pressure. /repo/include/fub/equations/PerfectGas.hpp:321-347 -/
noncomputable def gasPrim (q : GasComplete d) : GasPrim d := ⟨q.density, gasVelocity q, q.pressure⟩

/-- `Machnumber`. /repo/src/equations/PerfectGas.cpp:210-214 -/
noncomputable def gasMach (q : GasComplete d) : ℝ :=
  Real.sqrt (∑ i, gasVelocity q i * gasVelocity q i) / q.speedOfSound

/-- `Temperature`. /repo/src/equations/PerfectGas.cpp:216-224 -/
noncomputable def gasTemperature (eq : GasEq) (q : GasComplete d) : ℝ := q.pressure / (q.density * eq.Rspec)

/-- `rotation * momentum`. Serves the model of /repo/src/equations/PerfectGas.cpp:230-236,248-254. -/
def rotateVec (R : Fin d → Fin d → ℝ) (m : Fin d → ℝ) : Fin d → ℝ := fun i => ∑ j, R i j * m j

/-- `momentum - 2 (momentum · normal) normal`. Serves the model of /repo/src/equations/PerfectGas.cpp:266-300. -/
def reflectVec (n m : Fin d → ℝ) : Fin d → ℝ := fun i => m i - 2 * ((∑ j, m j * n j) * n i)

/-- `Rotate` of a conservative state (ranks 2 and 3). /repo/src/equations/PerfectGas.cpp:230-236,248-254 -/
def gasRotateCons (R : Fin d → Fin d → ℝ) (u : GasCons d) : GasCons d := { u with momentum := rotateVec R u.momentum }

/-- `Rotate` of a complete state. /repo/src/equations/PerfectGas.cpp:238-246,256-264 -/
def gasRotate (R : Fin d → Fin d → ℝ) (q : GasComplete d) : GasComplete d := { q with momentum := rotateVec R q.momentum }

/-- `Reflect` of a complete state. /repo/src/equations/PerfectGas.cpp:266-300 -/
def gasReflect (n : Fin d → ℝ) (q : GasComplete d) : GasComplete d := { q with momentum := reflectVec n q.momentum }

/-- `Reflect` of a primitive state. /repo/src/equations/PerfectGas.cpp:302-330 -/
def gasReflectPrim (n : Fin d → ℝ) (w : GasPrim d) : GasPrim d := { w with velocity := reflectVec n w.velocity }

/-- `Reflect` of a conservative state. /repo/src/equations/PerfectGas.cpp:332-360 -/
def gasReflectCons (n : Fin d → ℝ) (u : GasCons d) : GasCons d := { u with momentum := reflectVec n u.momentum }

/-! ### The equation as seen by the flux methods -/

/-- Names of the conservative components. Serves the model of /repo/include/fub/flux_method/HllMethod.hpp:191-213. -/
inductive GasVar (d : ℕ) where
  | density
  | momentum (i : Fin d)
  | energy
deriving DecidableEq

/-- The components of a conservative state, in the order of `ForEachComponent`. Serves the model of /repo/include/fub/flux_method/HllMethod.hpp:191-213. -/
def GasCons.get (u : GasCons d) : GasVar d → ℝ
  | .density => u.density
  | .momentum i => u.momentum i
  | .energy => u.energy

/-- A conservative state from its components. Serves the model of /repo/include/fub/flux_method/HllMethod.hpp:191-213. -/
def GasCons.ofFn (f : GasVar d → ℝ) : GasCons d := ⟨f .density, fun i => f (.momentum i), f .energy⟩

/-- The perfect gas in direction `dir` as an equation for the flux methods. `complete` and `flux` are the array versions; they agree with the
scalar versions wherever those do not fail an assertion. Serves the model of /repo/include/fub/flux_method/HllMethod.hpp:191-213. -/
noncomputable def gasEqn (eq : GasEq) (dir : Fin d) : EqnOps ℝ (GasComplete d) (GasVar d) where
  cons q := q.cons.get
  setCons q f := { q with density := f .density, momentum := fun i => f (.momentum i), energy := f .energy }
  complete f := gasCompleteArray eq (.ofFn f)
  flux q := (gasFluxArray q dir).get

/-! ### Einfeldt signal velocities -/

/-- The Roe average of the signal velocities. /repo/src/equations/perfect_gas/EinfeldtSignalVelocities.hpp:44-46 -/
noncomputable def roeAvg (rhoL rhoR xL xR : ℝ) : ℝ :=
  (xL * Real.sqrt rhoL + xR * Real.sqrt rhoR) * (1 / (Real.sqrt rhoL + Real.sqrt rhoR))

/-- `EinfeldtSignalVelocities<PerfectGas>`, scalar and array version; the scalar version asserts positive densities. `gamma` is
`equation.gamma` in the scalar version and `equation.gamma_array_` in the array version.
/repo/src/equations/perfect_gas/EinfeldtSignalVelocities.hpp:25-62,64-97 -/
noncomputable def einfeldt (gamma : ℝ) (dir : Fin d) (left right : GasComplete d) : ℝ × ℝ :=
  let uL := left.momentum dir / left.density
  let uR := right.momentum dir / right.density
  let roeU := roeAvg left.density right.density uL uR
  let hL := (left.energy + left.pressure) / left.density
  let hR := (right.energy + right.pressure) / right.density
  let roeH := roeAvg left.density right.density hL hR
  let roeA2 := (gamma - 1) * (roeH - 1 / 2 * roeU * roeU)
  let roeA := Real.sqrt roeA2
  (min (uL - left.speedOfSound) (roeU - roeA), max (roeU + roeA) (uR + right.speedOfSound))

/-- `EinfeldtSignalVelocities<PerfectGas>` with mask, one lane. The enthalpies of lines 132-133 divide by the unmasked densities, so a lane with
density zero produces 0/0 even if it is masked out: `none` stands for the NaN.
/repo/src/equations/perfect_gas/EinfeldtSignalVelocities.hpp:99-142 -/
noncomputable def einfeldtMasked (gamma : ℝ) (mask : Bool) (dir : Fin d) (left right : GasComplete d) : Option (ℝ × ℝ) :=
  if left.density = 0 ∨ right.density = 0 then none
  else
    let rhoUL := if mask then left.momentum dir else 0
    let rhoUR := if mask then right.momentum dir else 0
    let aL := if mask then left.speedOfSound else 0
    let aR := if mask then right.speedOfSound else 0
    let rhoL := if mask then left.density else 1
    let rhoR := if mask then right.density else 1
    let uL := rhoUL / rhoL
    let uR := rhoUR / rhoR
    let sq := Real.sqrt rhoL + Real.sqrt rhoR
    let avg := fun xL xR : ℝ => xL * (Real.sqrt rhoL / sq) + xR * (Real.sqrt rhoR / sq)
    let roeU := avg uL uR
    let hL := ((if mask then left.energy else 0) + (if mask then left.pressure else 0)) / left.density
    let hR := ((if mask then right.energy else 0) + (if mask then right.pressure else 0)) / right.density
    let roeH := avg hL hR
    let roeA2 := (gamma - 1) * (roeH - 1 / 2 * roeU * roeU)
    let roeA := Real.sqrt roeA2
    some (min (uL - aL) (roeU - roeA), max (roeU + roeA) (uR + aR))

/-! ### First order finite volume update of a line of cells with the HLL flux -/

/-- The stable time step at the face between cells `i - 1` and `i`. /repo/include/fub/flux_method/HllMethod.hpp:224-234 -/
noncomputable def hllGasFaceDt (eq : GasEq) (dir : Fin d) (dx : ℝ) (u : ℤ → GasComplete d) (i : ℤ) : WithTop ℝ :=
  signalDt [(einfeldt eq.gamma dir (u (i - 1)) (u i)).1, (einfeldt eq.gamma dir (u (i - 1)) (u i)).2] dx

/-- One conservative update of all cells of a line in direction `dir`, followed by `CompleteFromCons`; `none` if an assertion fails.
/repo/include/fub/flux_method/HllMethod.hpp:191-213, /repo/src/HyperbolicPatchIntegrator.cpp:35-62,
/repo/include/fub/HyperbolicPatchIntegrator.hpp, /repo/src/AMReX/IntegratorContext.cpp (`CompleteFromCons`).
Simplification: the line of cells is infinite; a periodic domain with `N` cells is periodic data. -/
noncomputable def hllGasStep (eq : GasEq) (dir : Fin d) (dt dx : ℝ) (u : ℤ → GasComplete d) (i : ℤ) : Option (GasComplete d) :=
  match hllFlux (gasEqn eq dir) (einfeldt eq.gamma dir) (u (i - 1)) (u i), hllFlux (gasEqn eq dir) (einfeldt eq.gamma dir) (u i) (u (i + 1)) with
  | some fL, some fR => gasComplete eq (.ofFn fun c => (u i).cons.get c + dt / dx * (fL c - fR c))
  | _, _ => none

end Fub
