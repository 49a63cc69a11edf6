import Verif.Model.IdealGasMix
import Verif.Model.MusclGas
import Verif.Model.Flux

/-!
# Signal velocities and MUSCL-Hancock methods of the ideal gas mixture

Model of `/repo/src/equations/ideal_gas_mix/EinfeldtSignalVelocities.hpp`,
`/repo/src/equations/ideal_gas_mix/MusclHancockPrimMethod.hpp` and
`/repo/src/equations/ideal_gas_mix/MusclHancockCharacteristicMethod.hpp`. Numbers are
real, one lane of each array. The assertions of `ComputeSpeedOfSound` are not part of the functions
below (they are `igmAssertions`, C128).
-/

namespace Fub

variable {d : ℕ} {S : Type}

/-! ### Einfeldt signal velocities -/

/-- The velocity and the speed of sound between two states, `/repo/src/equations/ideal_gas_mix/EinfeldtSignalVelocities.hpp:31-45` and, for arrays,
`/repo/src/equations/ideal_gas_mix/EinfeldtSignalVelocities.hpp:57-72`. -/
noncomputable def igmRoe (dir : Fin d) (left right : IgmComplete d S) : ℝ × ℝ :=
  let sqRhoL := Real.sqrt left.density
  let sqRhoR := Real.sqrt right.density
  let uL := left.momentum dir / left.density
  let uR := right.momentum dir / right.density
  let aL := left.speedOfSound
  let aR := right.speedOfSound
  ((sqRhoL * uL + sqRhoR * uR) / (sqRhoL + sqRhoR),
    Real.sqrt ((sqRhoL * aL * aL + sqRhoR * aR * aR) / (sqRhoL + sqRhoR) +
      1 / 2 * (sqRhoL * sqRhoR) / ((sqRhoL + sqRhoR) * (sqRhoL + sqRhoR)) * (uR - uL) * (uR - uL)))

/-- `EinfeldtSignalVelocities<IdealGasMix>`, scalar version, `/repo/src/equations/ideal_gas_mix/EinfeldtSignalVelocities.hpp:25-51`. -/
noncomputable def igmEinfeldt (dir : Fin d) (left right : IgmComplete d S) : ℝ × ℝ :=
  let r := igmRoe dir left right
  (min (left.momentum dir / left.density - left.speedOfSound) (r.1 - 1 / 2 * r.2),
    max (r.1 + 1 / 2 * r.2) (right.momentum dir / right.density + right.speedOfSound))

/-- Array version, `/repo/src/equations/ideal_gas_mix/EinfeldtSignalVelocities.hpp:53-78`. -/
noncomputable def igmEinfeldtLane (dir : Fin d) (left right : IgmComplete d S) : ℝ × ℝ :=
  let r := igmRoe dir left right
  (min (left.momentum dir / left.density - left.speedOfSound) (r.1 - r.2),
    max (r.1 + r.2) (right.momentum dir / right.density + right.speedOfSound))

/-- Array version with mask, `/repo/src/equations/ideal_gas_mix/EinfeldtSignalVelocities.hpp:80-114`. -/
noncomputable def igmEinfeldtMasked (dir : Fin d) (mask : Bool) (left right : IgmComplete d S) :
    ℝ × ℝ :=
  let rhoL := if mask then left.density else 0
  let rhoR := if mask then right.density else 0
  let rhoUL := if mask then left.momentum dir else 0
  let rhoUR := if mask then right.momentum dir else 0
  let aL := if mask then left.speedOfSound else 0
  let aR := if mask then right.speedOfSound else 0
  let sqRhoL := Real.sqrt rhoL
  let sqRhoR := Real.sqrt rhoR
  let sqRho := if mask then sqRhoL + sqRhoR else 1
  let rhoLs := if mask then rhoL else 1
  let rhoRs := if mask then rhoR else 1
  let uL := rhoUL / rhoLs
  let uR := rhoUR / rhoRs
  let wL := sqRhoL / sqRho
  let wR := sqRhoR / sqRho
  let roeU := wL * uL + wR * uR
  let roeA := Real.sqrt (wL * aL * aL + wR * aR * aR + 1 / 2 * wL * wR * (uR - uL) * (uR - uL))
  (min (uL - aL) (roeU - 1 / 2 * roeA), max (roeU + 1 / 2 * roeA) (uR + aR))

/-! ### The HLL method -/

/-- The names of the conservative variables, `/repo/include/fub/equations/IdealGasMix.hpp:37-44`. -/
inductive IgmVar (d : ℕ) (S : Type) where
  | density
  | momentum (i : Fin d)
  | energy
  | species (s : S)

/-- The value of a conservative variable. Serves the model of /repo/include/fub/equations/IdealGasMix.hpp:37-44. -/
def IgmCons.get (c : IgmCons d S) : IgmVar d S → ℝ
  | .density => c.density
  | .momentum i => c.momentum i
  | .energy => c.energy
  | .species s => c.species s

/-- The conservative variables as a state. Serves the model of /repo/include/fub/equations/IdealGasMix.hpp:37-44. -/
def IgmCons.ofFn (f : IgmVar d S → ℝ) : IgmCons d S :=
  ⟨f .density, fun i => f (.momentum i), f .energy, fun s => f (.species s)⟩

/-- What the HLL method uses of the equation, scalar version; `old` is what the member `fluxL_`
or `fluxR_` held before (`/repo/src/equations/IdealGasMix.cpp:25-28` writes nothing if the density is not positive), `complete`
is not used by the flux. /repo/include/fub/flux_method/HllMethod.hpp:191-213 -/
noncomputable def igmEqn (old : IgmCons d S) (complete : IgmCons d S → IgmComplete d S)
    (dir : Fin d) : EqnOps ℝ (IgmComplete d S) (IgmVar d S) where
  cons q := q.toIgmCons.get
  setCons q u := { q with toIgmCons := IgmCons.ofFn u }
  complete u := complete (IgmCons.ofFn u)
  flux q := (igmFlux old q dir).get

/-- What the HLL method uses of the equation, array version.
/repo/include/fub/flux_method/HllMethod.hpp:260-284 -/
noncomputable def igmEqnLane (complete : IgmCons d S → IgmComplete d S) (dir : Fin d) :
    EqnOps ℝ (IgmComplete d S) (IgmVar d S) where
  cons q := q.toIgmCons.get
  setCons q u := { q with toIgmCons := IgmCons.ofFn u }
  complete u := complete (IgmCons.ofFn u)
  flux q := (igmFluxLane q dir).get

/-! ### MusclHancockPrimitive -/

/-- `Primitive<Rank>`: pressure, velocity, temperature and mass fractions.
/repo/include/fub/equations/ideal_gas_mix/MusclHancockPrimMethod.hpp:29-34 (`Primitive`) -/
@[ext] structure IgmPrim (d : ℕ) (S : Type) where
  pressure : ℝ
  velocity : Fin d → ℝ
  temperature : ℝ
  massFractions : S → ℝ

/-- `ToPrim`, scalar version, `/repo/src/equations/ideal_gas_mix/MusclHancockPrimMethod.hpp:78-86`. -/
noncomputable def igmToPrim (q : IgmComplete d S) : IgmPrim d S :=
  ⟨q.pressure, fun i => q.momentum i / q.density, q.temperature, fun s => q.species s / q.density⟩

/-- `ToPrim`, array version, `/repo/src/equations/ideal_gas_mix/MusclHancockPrimMethod.hpp:88-100`. -/
noncomputable def igmToPrimLane (q : IgmComplete d S) : IgmPrim d S :=
  let rhoS := if 0 < q.density then q.density else 1
  ⟨q.pressure, fun i => q.momentum i / rhoS, q.temperature, fun s => q.species s / rhoS⟩

/-- `ToPrim`, array version with mask, `/repo/src/equations/ideal_gas_mix/MusclHancockPrimMethod.hpp:102-115`. -/
noncomputable def igmToPrimMasked (mask : Bool) (q : IgmComplete d S) : IgmPrim d S :=
  let rhoS := if 0 < q.density then q.density else 1
  ⟨if mask then q.pressure else 0, fun i => if mask then q.momentum i / rhoS else 0,
    if mask then q.temperature else 0, fun s => if mask then q.species s / rhoS else 0⟩

/-- `PrimDerivatives`, `/repo/src/equations/ideal_gas_mix/MusclHancockPrimMethod.hpp:117-152` and, for arrays, `/repo/src/equations/ideal_gas_mix/MusclHancockPrimMethod.hpp:154-193`. -/
noncomputable def igmPrimDerivatives [Fintype S] (m : Mechanism S ℝ) (q : IgmComplete d S)
    (dx : IgmPrim d S) (dir : Fin d) : IgmPrim d S :=
  let dudx := dx.velocity dir
  let p := q.pressure
  let rho := q.density
  let T := q.temperature
  let u := q.momentum dir / q.density
  let Rhat := m.gasConstant
  let cv := q.cp / q.gamma
  let R := q.cp - cv
  let sumdXdx := ∑ s, dx.massFractions s / m.molarMass s
  let dRdt := -Rhat * u * sumdXdx
  let dTdt := (-p * dudx - rho * u * cv * dx.temperature) / (rho * cv)
  let drhodx := dx.pressure / (R * T) - p / (R * T * T) * dx.temperature -
    rho * Rhat * sumdXdx / R
  { pressure := -R * T * (u * drhodx + rho * dudx) + rho * R * dTdt + rho * T * dRdt
    velocity := fun i => -u * dx.velocity i - if i = dir then dx.pressure / rho else 0
    temperature := dTdt
    massFractions := fun s => -u * dx.massFractions s }

/-- `PrimDerivatives` with mask, `/repo/src/equations/ideal_gas_mix/MusclHancockPrimMethod.hpp:195-241`. -/
noncomputable def igmPrimDerivativesMasked [Fintype S] (mask : Bool) (m : Mechanism S ℝ)
    (q : IgmComplete d S) (dx : IgmPrim d S) (dir : Fin d) : IgmPrim d S :=
  let dudx := dx.velocity dir
  let p := if mask then q.pressure else 0
  let rho := if mask then q.density else 0
  let rhoS := if mask then q.density else 1
  let T := if mask then q.temperature else 0
  let TS := if mask then q.temperature else 1
  let u := if mask then q.momentum dir / rhoS else 0
  let Rhat := m.gasConstant
  let cv := if mask then q.cp / q.gamma else 1
  let R := if mask then q.cp - cv else 0
  let RS := if mask then q.cp - cv else 1
  let sumdXdx := ∑ s, dx.massFractions s / m.molarMass s
  let dRdt := -u * Rhat * sumdXdx
  let dTdt := (-p * dudx - rho * u * cv * dx.temperature) / (rhoS * cv)
  let drhodx := dx.pressure / (RS * TS) - p / (RS * TS * TS) * dx.temperature -
    rho * Rhat * sumdXdx / RS
  { pressure := -R * T * (u * drhodx + rho * dudx) + rho * R * dTdt + rho * T * dRdt
    velocity := fun i => -u * dx.velocity i - if i = dir then dx.pressure / rhoS else 0
    temperature := dTdt
    massFractions := fun s => -u * dx.massFractions s }

/-- `ApplyLimiter`, scalar version, `/repo/src/equations/ideal_gas_mix/MusclHancockPrimMethod.hpp:243-264`; the lambda is that of
`MinMod::ComputeLimitedSlope` (`minModSlope`). -/
noncomputable def igmSlopes (pL pM pR : IgmPrim d S) : IgmPrim d S :=
  ⟨minModSlope pL.pressure pM.pressure pR.pressure,
    fun i => minModSlope (pL.velocity i) (pM.velocity i) (pR.velocity i),
    minModSlope pL.temperature pM.temperature pR.temperature,
    fun s => minModSlope (pL.massFractions s) (pM.massFractions s) (pR.massFractions s)⟩

/-- The lambda `Limiter` of the array version, `/repo/src/equations/ideal_gas_mix/MusclHancockPrimMethod.hpp:274-289`; `eps` is the literal `1e-12`. -/
noncomputable def igmSigma (eps qL qM qR : ℝ) : ℝ :=
  let delta := 1 / 2 * (qR - qL)
  let deltaIf := if eps < |delta| then delta else 1
  let rL := if eps < |delta| then (qM - qL) / deltaIf else 0
  let rR := if eps < |delta| then (qR - qM) / deltaIf else 0
  let r := if 0 < rL ∧ 0 < rR then min rL rR else 0
  if r < 1 then 2 * r / (1 + r) else 1 / 2 * (r + 1)

/-- The lambda `Limiter` of the masked version, `/repo/src/equations/ideal_gas_mix/MusclHancockPrimMethod.hpp:318-333`. -/
noncomputable def igmSigmaMasked (mask : Bool) (eps qL qM qR : ℝ) : ℝ :=
  let delta := if mask then 1 / 2 * (qR - qL) else 0
  let deltaIf := if eps < |delta| then delta else 1
  let rL := if eps < |delta| then (qM - qL) / deltaIf else 0
  let rR := if eps < |delta| then (qR - qM) / deltaIf else 0
  let r := if eps < |delta| ∧ 0 < rL ∧ 0 < rR then min rL rR else 0
  if r < 1 then 2 * r / (1 + r) else 1 / 2 * (r + 1)

/-- `ApplyLimiter`, array version, `/repo/src/equations/ideal_gas_mix/MusclHancockPrimMethod.hpp:266-307`: the differences of all mass fractions are
multiplied with the limiter of the first species. -/
noncomputable def igmSlopesLane (eps : ℝ) (first : S) (pL pM pR : IgmPrim d S) : IgmPrim d S :=
  ⟨igmSigma eps pL.pressure pM.pressure pR.pressure * (1 / 2 * (pR.pressure - pL.pressure)),
    fun i => igmSigma eps (pL.velocity i) (pM.velocity i) (pR.velocity i) *
      (1 / 2 * (pR.velocity i - pL.velocity i)),
    igmSigma eps pL.temperature pM.temperature pR.temperature *
      (1 / 2 * (pR.temperature - pL.temperature)),
    fun s => igmSigma eps (pL.massFractions first) (pM.massFractions first)
      (pR.massFractions first) * (1 / 2 * (pR.massFractions s - pL.massFractions s))⟩

/-- `ApplyLimiter` with mask, `/repo/src/equations/ideal_gas_mix/MusclHancockPrimMethod.hpp:309-351`. -/
noncomputable def igmSlopesMasked (mask : Bool) (eps : ℝ) (first : S) (pL pM pR : IgmPrim d S) :
    IgmPrim d S :=
  let dqdx := fun qL qR : ℝ => if mask then 1 / 2 * (qR - qL) else 0
  ⟨igmSigmaMasked mask eps pL.pressure pM.pressure pR.pressure * dqdx pL.pressure pR.pressure,
    fun i => igmSigmaMasked mask eps (pL.velocity i) (pM.velocity i) (pR.velocity i) *
      dqdx (pL.velocity i) (pR.velocity i),
    igmSigmaMasked mask eps pL.temperature pM.temperature pR.temperature *
      dqdx pL.temperature pR.temperature,
    fun s => igmSigmaMasked mask eps (pL.massFractions first) (pM.massFractions first)
      (pR.massFractions first) * dqdx (pL.massFractions s) (pR.massFractions s)⟩

/-- The state at the upper face of a cell after half a time step, `/repo/src/equations/ideal_gas_mix/MusclHancockPrimMethod.hpp:367-375` and, for arrays,
`/repo/src/equations/ideal_gas_mix/MusclHancockPrimMethod.hpp:409-426` and `/repo/src/equations/ideal_gas_mix/MusclHancockPrimMethod.hpp:480-497`; `lambda` is `dt / dx`. -/
noncomputable def igmUpper (lambda : ℝ) (pM dpdx dpdt : IgmPrim d S) : IgmPrim d S :=
  ⟨pM.pressure + 1 / 2 * (lambda * dpdt.pressure + dpdx.pressure),
    fun i => pM.velocity i + 1 / 2 * (lambda * dpdt.velocity i + dpdx.velocity i),
    pM.temperature + 1 / 2 * (lambda * dpdt.temperature + dpdx.temperature),
    fun s => pM.massFractions s + 1 / 2 * (lambda * dpdt.massFractions s + dpdx.massFractions s)⟩

/-- The state at the lower face of a cell, scalar version, `/repo/src/equations/ideal_gas_mix/MusclHancockPrimMethod.hpp:383-391`. -/
noncomputable def igmLower (lambda : ℝ) (pM dpdx dpdt : IgmPrim d S) : IgmPrim d S :=
  ⟨pM.pressure + 1 / 2 * (lambda * dpdt.pressure - dpdx.pressure),
    fun i => pM.velocity i + 1 / 2 * (lambda * dpdt.velocity i - dpdx.velocity i),
    pM.temperature + 1 / 2 * (lambda * dpdt.temperature - dpdx.temperature),
    fun s => pM.massFractions s + 1 / 2 * (lambda * dpdt.massFractions s - dpdx.massFractions s)⟩

/-- The state at the lower face of a cell, array versions, `/repo/src/equations/ideal_gas_mix/MusclHancockPrimMethod.hpp:434-451` and
`/repo/src/equations/ideal_gas_mix/MusclHancockPrimMethod.hpp:507-524`: the temperature is computed with a minus sign. -/
noncomputable def igmLowerLane (lambda : ℝ) (pM dpdx dpdt : IgmPrim d S) : IgmPrim d S :=
  ⟨pM.pressure + 1 / 2 * (-dpdx.pressure + lambda * dpdt.pressure),
    fun i => pM.velocity i + 1 / 2 * (-dpdx.velocity i + lambda * dpdt.velocity i),
    pM.temperature - 1 / 2 * (-dpdx.temperature + lambda * dpdt.temperature),
    fun s => pM.massFractions s + 1 / 2 * (-dpdx.massFractions s + lambda * dpdt.massFractions s)⟩

section reactor
variable [Fintype S]

/-- The reactor after the calls of `CompleteFromPrim`, scalar version, `/repo/src/equations/ideal_gas_mix/MusclHancockPrimMethod.hpp:46-50`. -/
noncomputable def igmPrimReactor (m : Mechanism S ℝ) (s : ReactorState S ℝ) (w : IgmPrim d S) :
    ReactorState S ℝ :=
  (((s.setDensity 1).setMassFractions m w.massFractions).setTemperature m w.temperature).setPressure
    m w.pressure

/-- `CompleteFromPrim`, scalar version, `/repo/src/equations/ideal_gas_mix/MusclHancockPrimMethod.hpp:42-52`: the reactor and the complete state. -/
noncomputable def igmFromPrim (m : Mechanism S ℝ) (s : ReactorState S ℝ) (w : IgmPrim d S) :
    ReactorState S ℝ × IgmComplete d S :=
  (igmPrimReactor m s w, igmCompleteFromReactor m (igmPrimReactor m s w) w.velocity)

/-- The array state of the reactor in one lane after the calls of `CompleteFromPrim`,
`/repo/src/equations/ideal_gas_mix/MusclHancockPrimMethod.hpp:58-62` with `SetMassFractionsArray` (`/repo/src/equations/ideal_gas_mix/FlameMasterReactor.cpp:876-888`), `SetTemperatureArray`
(`/repo/src/equations/ideal_gas_mix/FlameMasterReactor.cpp:567-570`), `SetPressureArray` (`/repo/include/fub/equations/ideal_gas_mix/FlameMasterReactor.hpp:245-251`) and `GetMeanMolarMassArray`
(`/repo/src/equations/ideal_gas_mix/FlameMasterReactor.cpp:524-533`). All members which are read are overwritten. -/
noncomputable def igmPrimLane (m : Mechanism S ℝ) (w : IgmPrim d S) : ReactorState S ℝ :=
  let y := massFractionsLane w.massFractions
  let minv := ∑ i, y i / m.molarMass i
  let minv' := if 0 < minv then minv else 1
  let T' := if 0 < w.temperature then w.temperature else 1
  { massFractions := y
    moles := fun _ => 0
    temperature := w.temperature
    density := w.pressure * (1 / minv') / T' / m.gasConstant
    thermoTemp := w.temperature
    enthalpies := (m.thermo w.temperature).1
    heatCapacities := (m.thermo w.temperature).2 }

/-- `CompleteFromPrim`, one lane of the array version, `/repo/src/equations/ideal_gas_mix/MusclHancockPrimMethod.hpp:54-64`. -/
noncomputable def igmFromPrimLane (m : Mechanism S ℝ) (w : IgmPrim d S) : IgmComplete d S :=
  igmCompleteFromReactor m (igmPrimLane m w) w.velocity

/-- `CompleteFromPrim` with mask, `/repo/src/equations/ideal_gas_mix/MusclHancockPrimMethod.hpp:66-76`. -/
noncomputable def igmFromPrimMasked (mask : Bool) (m : Mechanism S ℝ) (w : IgmPrim d S) :
    IgmComplete d S :=
  igmCompleteMasked mask m (igmPrimLane m w) w.velocity

/-- The two primitive states at a face, scalar version, `/repo/src/equations/ideal_gas_mix/MusclHancockPrimMethod.hpp:361-375` and `/repo/src/equations/ideal_gas_mix/MusclHancockPrimMethod.hpp:378-391`. -/
noncomputable def igmPrimFaces (m : Mechanism S ℝ) (lambda : ℝ) (dir : Fin d)
    (q0 q1 q2 q3 : IgmComplete d S) : IgmPrim d S × IgmPrim d S :=
  let sL := igmSlopes (igmToPrim q0) (igmToPrim q1) (igmToPrim q2)
  let sR := igmSlopes (igmToPrim q1) (igmToPrim q2) (igmToPrim q3)
  (igmUpper lambda (igmToPrim q1) sL (igmPrimDerivatives m q1 sL dir),
    igmLower lambda (igmToPrim q2) sR (igmPrimDerivatives m q2 sR dir))

/-- The two primitive states at a face, one lane of the array version, `/repo/src/equations/ideal_gas_mix/MusclHancockPrimMethod.hpp:404-426` and
`/repo/src/equations/ideal_gas_mix/MusclHancockPrimMethod.hpp:429-451`. -/
noncomputable def igmPrimFacesLane (m : Mechanism S ℝ) (eps : ℝ) (first : S) (lambda : ℝ)
    (dir : Fin d) (q0 q1 q2 q3 : IgmComplete d S) : IgmPrim d S × IgmPrim d S :=
  let sL := igmSlopesLane eps first (igmToPrimLane q0) (igmToPrimLane q1) (igmToPrimLane q2)
  let sR := igmSlopesLane eps first (igmToPrimLane q1) (igmToPrimLane q2) (igmToPrimLane q3)
  (igmUpper lambda (igmToPrimLane q1) sL (igmPrimDerivatives m q1 sL dir),
    igmLowerLane lambda (igmToPrimLane q2) sR (igmPrimDerivatives m q2 sR dir))

/-- The two primitive states at a face, one lane of the masked version, `/repo/src/equations/ideal_gas_mix/MusclHancockPrimMethod.hpp:470-524`. -/
noncomputable def igmPrimFacesMasked (m : Mechanism S ℝ) (eps : ℝ) (first : S) (lambda : ℝ)
    (dir : Fin d) (face vol0 vol3 : ℝ) (q0 q1 q2 q3 : IgmComplete d S) :
    IgmPrim d S × IgmPrim d S :=
  let mask : Bool := decide (0 < face)
  let left : Bool := decide (0 < vol0)
  let right : Bool := decide (0 < vol3)
  let sL := igmSlopesMasked (left && mask) eps first (igmToPrimMasked left q0)
    (igmToPrimMasked mask q1) (igmToPrimMasked mask q2)
  let sR := igmSlopesMasked (mask && right) eps first (igmToPrimMasked mask q1)
    (igmToPrimMasked mask q2) (igmToPrimMasked right q3)
  (igmUpper lambda (igmToPrimMasked mask q1) sL (igmPrimDerivativesMasked mask m q1 sL dir),
    igmLowerLane lambda (igmToPrimMasked mask q2) sR (igmPrimDerivativesMasked mask m q2 sR dir))

/-- `MusclHancockPrimitive::ComputeNumericFlux`, scalar version, `/repo/src/equations/ideal_gas_mix/MusclHancockPrimMethod.hpp:355-395`; `s` is the
reactor of the equation before the call, `old` is what the member variables for the fluxes held. -/
noncomputable def igmMusclPrimFlux (m : Mechanism S ℝ) (s : ReactorState S ℝ)
    (old : IgmCons d S) (complete : IgmCons d S → IgmComplete d S) (lambda : ℝ) (dir : Fin d)
    (q0 q1 q2 q3 : IgmComplete d S) : Option (IgmVar d S → ℝ) :=
  let w := igmPrimFaces m lambda dir q0 q1 q2 q3
  let l := igmFromPrim m s w.1
  let r := igmFromPrim m l.1 w.2
  hllFlux (igmEqn old complete dir) (igmEinfeldt dir) l.2 r.2

/-- `MusclHancockPrimitive::ComputeNumericFlux`, one lane of the array version, `/repo/src/equations/ideal_gas_mix/MusclHancockPrimMethod.hpp:397-454`. -/
noncomputable def igmMusclPrimFluxLane (m : Mechanism S ℝ) (eps : ℝ) (first : S)
    (complete : IgmCons d S → IgmComplete d S) (lambda : ℝ) (dir : Fin d)
    (q0 q1 q2 q3 : IgmComplete d S) : IgmVar d S → ℝ :=
  let w := igmPrimFacesLane m eps first lambda dir q0 q1 q2 q3
  hllFluxArray (igmEqnLane complete dir) (igmEinfeldtLane dir) (igmFromPrimLane m w.1)
    (igmFromPrimLane m w.2)

/-- One lane of the masked version, `/repo/src/equations/ideal_gas_mix/MusclHancockPrimMethod.hpp:456-530`. -/
noncomputable def igmMusclPrimFluxMaskedLane (m : Mechanism S ℝ) (eps : ℝ) (first : S)
    (complete : IgmCons d S → IgmComplete d S) (lambda : ℝ) (dir : Fin d) (face vol0 vol3 : ℝ)
    (q0 q1 q2 q3 : IgmComplete d S) : Option (IgmVar d S → ℝ) :=
  let w := igmPrimFacesMasked m eps first lambda dir face vol0 vol3 q0 q1 q2 q3
  let mask : Bool := decide (0 < face)
  hllFluxMasked (igmEqnLane complete dir) (fun b => igmEinfeldtMasked dir b)
    (fun b q => (igmFluxMasked b q dir).get) face
    (igmFromPrimMasked mask m w.1) (igmFromPrimMasked mask m w.2)

/-- The masked version on a whole chunk, `/repo/src/equations/ideal_gas_mix/MusclHancockPrimMethod.hpp:456-530`: nothing is written if no face of the
chunk is open (`/repo/src/equations/ideal_gas_mix/MusclHancockPrimMethod.hpp:462-465`); `before` is what `flux` held. -/
noncomputable def igmMusclPrimFluxMasked {ι : Type} [Fintype ι] (m : Mechanism S ℝ) (eps : ℝ)
    (first : S) (complete : IgmCons d S → IgmComplete d S) (lambda : ℝ) (dir : Fin d)
    (face vol0 vol3 : ι → ℝ) (q0 q1 q2 q3 : ι → IgmComplete d S) (before : ι → IgmVar d S → ℝ) :
    ι → Option (IgmVar d S → ℝ) :=
  haveI := Classical.propDecidable (∃ l, 0 < face l)
  if ∃ l, 0 < face l then fun l => igmMusclPrimFluxMaskedLane m eps first complete lambda dir
    (face l) (vol0 l) (vol3 l) (q0 l) (q1 l) (q2 l) (q3 l)
  else fun l => some (before l)

/-! ### MusclHancockCharacteristic -/

/-- The members of a complete state of the mixture which the characteristic method reads besides the
species, as state of the perfect gas model (the functions `ComputeAmplitudes`, `Recombine` and
`DoTimeStep` are the same in both methods). `/repo/src/equations/ideal_gas_mix/MusclHancockCharacteristicMethod.hpp:36-66`, `/repo/src/equations/ideal_gas_mix/MusclHancockCharacteristicMethod.hpp:131-187` -/
def IgmComplete.toGas (q : IgmComplete d S) : GasComplete d :=
  ⟨q.density, q.momentum, q.energy, q.pressure, q.speedOfSound⟩

/-- `ComputeSlopes` for the species, `/repo/src/equations/ideal_gas_mix/MusclHancockCharacteristicMethod.hpp:87-94`, arrays `/repo/src/equations/ideal_gas_mix/MusclHancockCharacteristicMethod.hpp:118-125`. -/
noncomputable def igmSpeciesSlopes (limiter : ℝ → ℝ → ℝ) (qL qM qR : IgmComplete d S) : S → ℝ :=
  fun s => limiter (qM.species s / qM.density - qL.species s / qL.density)
    (qR.species s / qR.density - qM.species s / qM.density)

/-- The mass fractions of `Reconstruct`, `/repo/src/equations/ideal_gas_mix/MusclHancockCharacteristicMethod.hpp:168-170`, `/repo/src/equations/ideal_gas_mix/MusclHancockCharacteristicMethod.hpp:140-142`, `/repo/src/equations/ideal_gas_mix/MusclHancockCharacteristicMethod.hpp:246-248`. -/
noncomputable def igmCharSpecies (slope : S → ℝ) (q : IgmComplete d S) (rightSide : Bool)
    (lambda : ℝ) (dir : Fin d) : S → ℝ :=
  let sign : ℝ := if rightSide then -1 else 1
  fun s => sign * (1 / 2) * slope s * (1 - sign * lambda * (q.momentum dir / q.density)) +
    q.species s / q.density

/-- The reactor after the calls of `CompleteFromPrim`, `/repo/src/equations/ideal_gas_mix/MusclHancockCharacteristicMethod.hpp:192-198`. -/
noncomputable def igmCharReactor (m : Mechanism S ℝ) (s : ReactorState S ℝ) (w : GasPrim d)
    (y : S → ℝ) : ReactorState S ℝ :=
  let s1 := (s.setMassFractions m y).setDensity w.density
  s1.setTemperature m (w.pressure * s1.meanMolarMass m / w.density / m.gasConstant)

/-- `Reconstruct`, scalar version, `/repo/src/equations/ideal_gas_mix/MusclHancockCharacteristicMethod.hpp:226-250`: the reactor and the complete state. -/
noncomputable def igmCharReconstruct (m : Mechanism S ℝ) (s : ReactorState S ℝ)
    (limiter : ℝ → ℝ → ℝ) (qL qM qR : IgmComplete d S) (rightSide : Bool) (lambda : ℝ)
    (dir : Fin d) (ix : Fin 3) : ReactorState S ℝ × IgmComplete d S :=
  let w := charReconstruct3 limiter qL.toGas qM.toGas qR.toGas rightSide lambda dir ix
  let y := igmCharSpecies (igmSpeciesSlopes limiter qL qM qR) qM rightSide lambda dir
  let s' := igmCharReactor m s w y
  (s', igmCompleteFromReactor m s' w.velocity)

/-- `MusclHancockCharacteristic::ComputeNumericFlux`, scalar version, `/repo/src/equations/ideal_gas_mix/MusclHancockCharacteristicMethod.hpp:278-292`; the ratio
`0.5 * dt / dx` is given to both reconstructions. -/
noncomputable def igmMusclCharFlux (m : Mechanism S ℝ) (s : ReactorState S ℝ) (old : IgmCons d S)
    (complete : IgmCons d S → IgmComplete d S) (limiter : ℝ → ℝ → ℝ) (dt dx : ℝ) (dir : Fin d)
    (ix : Fin 3) (q0 q1 q2 q3 : IgmComplete d S) : Option (IgmVar d S → ℝ) :=
  let lambda := 1 / 2 * dt / dx
  let l := igmCharReconstruct m s limiter q0 q1 q2 false lambda dir ix
  let r := igmCharReconstruct m l.1 limiter q1 q2 q3 true lambda dir ix
  hllFlux (igmEqn old complete dir) (igmEinfeldt dir) l.2 r.2

end reactor

/-- The loop of the array version of `Reconstruct` which adds the mass fractions of the cell,
`/repo/src/equations/ideal_gas_mix/MusclHancockCharacteristicMethod.hpp:272-274`. `species.size()` is the number of rows times the number of lanes; `row(s)` with
`s ≥ rows` is an access outside of the array: `none`. -/
def igmAddRows (rows lanes : ℕ) (diffs y : Fin rows → Fin lanes → ℝ) :
    Option (Fin rows → Fin lanes → ℝ) :=
  (List.range (rows * lanes)).foldlM (fun acc s =>
    if h : s < rows then
      some (Function.update acc ⟨s, h⟩ (fun l => acc ⟨s, h⟩ l + y ⟨s, h⟩ l))
    else none) diffs

end Fub
