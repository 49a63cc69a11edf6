import Verif.Model.GasMix
import Mathlib.Analysis.SpecialFunctions.Trigonometric.Arctan

/-!
# Model of the control of a gas turbine

Source: `/repo/src/equations/perfect_gas_mix/PlenaControl.cpp`, `/repo/include/fub/equations/perfect_gas_mix/PlenaControl.hpp`,
`/repo/include/fub/equations/perfect_gas_mix/PlenaControlFeedback.hpp`.

Simplifications: exact real numbers; the square root of a negative number, which is not a number in the code and then stays in the state, is `none`. The shared pointer to the state is a value;
the fluxes that are read from the grid are arguments.
-/

namespace Fub

/-- `PlenumState`. /repo/include/fub/equations/perfect_gas_mix/PlenaControl.hpp:111-118 -/
structure PlenumState where
  pressure : ℝ
  temperature : ℝ
  power : ℝ
  massFlowIn : ℝ
  massFlowOut : ℝ
  secMode : Bool

/-- `ControlOptions`; members that are never read are left out. /repo/include/fub/equations/perfect_gas_mix/PlenaControl.hpp:120-167 -/
structure ControlOptions where
  efficiencyTurbine : ℝ
  areaTubeInlet : ℝ
  areaTubeOutlet : ℝ
  volumeCompressor : ℝ
  volumeTurbine : ℝ
  efficiencyCompressor : ℝ
  rpmmin : ℝ
  rpmmax : ℝ
  rpmmean : ℝ
  pratiomin : ℝ
  pratiomax : ℝ
  pratiomean : ℝ
  pratiovar : ℝ
  c0 : ℝ
  inertialMoment : ℝ
  mu : ℝ
  targetPressure : ℝ
  secTolerance : ℝ
  Q : ℝ
  initialTurbine : PlenumState

/-- The constructor from program options computes the means and the range last. /repo/src/equations/perfect_gas_mix/PlenaControl.cpp:182-211 -/
noncomputable def ControlOptions.derive (o : ControlOptions) : ControlOptions :=
  { o with rpmmean := 1 / 2 * (o.rpmmax + o.rpmmin), pratiomean := 1 / 2 * (o.pratiomax + o.pratiomin), pratiovar := o.pratiomax - o.pratiomin }

/-- The default values. /repo/include/fub/equations/perfect_gas_mix/PlenaControl.hpp:126-167 -/
noncomputable def ControlOptions.default : ControlOptions :=
  ControlOptions.derive
    { efficiencyTurbine := 9 / 10, areaTubeInlet := 1, areaTubeOutlet := 4, volumeCompressor := 20, volumeTurbine := 20, efficiencyCompressor := 9 / 10,
      rpmmin := 10000 / 60, rpmmax := 60000 / 60, rpmmean := 0, pratiomin := 1, pratiomax := 50, pratiomean := 0, pratiovar := 0, c0 := 22 / 17,
      inertialMoment := 1 / 10, mu := 10, targetPressure := 13 / 2, secTolerance := 1 / 10000, Q := 3 / (4 / 10), initialTurbine := ⟨0, 0, 0, 0, 0, false⟩ }

/-- `ControlState`. /repo/include/fub/equations/perfect_gas_mix/PlenaControl.hpp:169-177 -/
structure ControlState where
  rpm : ℝ
  compressor : PlenumState
  turbine : PlenumState
  powerOut : ℝ
  fuelConsumption : ℝ
  fuelRate : ℝ
  efficiency : ℝ

/-- `UpdateTurbinePlenum`. /repo/src/equations/perfect_gas_mix/PlenaControl.cpp:37-58 -/
noncomputable def updateTurbinePlenum (s : ControlState) (eq : MixEq) (o : ControlOptions) (mdot : ℝ) (cur : PlenumState) (fluxRhoLast dt : ℝ) : ControlState :=
  let pHalf := 1 / 2 * (s.turbine.pressure + cur.pressure)
  let THalf := 1 / 2 * (s.turbine.temperature + cur.temperature)
  let gmoog := eq.gammaMinusOne * eq.gammaInv
  let cp := eq.gammaOverGammaMinusOne
  { s with turbine := { s.turbine with
      massFlowIn := (1 - dt) * s.turbine.massFlowIn + dt * fluxRhoLast * o.areaTubeOutlet
      massFlowOut := (1 - dt) * s.turbine.massFlowOut + dt * mdot
      power := mdot * cp * o.efficiencyTurbine * THalf * (1 - pHalf ^ (-gmoog))
      pressure := cur.pressure
      temperature := cur.temperature } }

/-- `CompressorPressureRatio`. /repo/src/equations/perfect_gas_mix/PlenaControl.cpp:63-69 -/
noncomputable def compressorRatio (o : ControlOptions) (rpm : ℝ) : ℝ :=
  o.pratiomean + o.c0 * o.pratiovar * Real.arctan (Real.pi * (rpm / o.rpmmean - 1)) / Real.pi

/-- `UpdateCompressorFromRPM`. /repo/src/equations/perfect_gas_mix/PlenaControl.cpp:72-81 -/
noncomputable def updateCompressorFromRPM (s : ControlState) (eq : MixEq) (o : ControlOptions) : ControlState :=
  let p := compressorRatio o s.rpm
  { s with compressor := { s.compressor with pressure := p, temperature := 1 + (p ^ (eq.gammaMinusOne * eq.gammaInv) - 1) / o.efficiencyCompressor } }

/-- `UpdateCompressorPlenum`. /repo/src/equations/perfect_gas_mix/PlenaControl.cpp:89-132 -/
noncomputable def updateCompressorPlenum (s : ControlState) (eq : MixEq) (o : ControlOptions) (fluxRho fluxSpec dt : ℝ) : ControlState :=
  let TOld := s.compressor.temperature
  let rhoOld := s.compressor.pressure / s.compressor.temperature
  let s := updateCompressorFromRPM s eq o
  let rhoNew := s.compressor.pressure / s.compressor.temperature
  let mdot := fluxRho * o.areaTubeInlet + o.volumeCompressor / dt * (rhoNew - rhoOld)
  let THalf := 1 / 2 * (TOld + s.compressor.temperature)
  let increase := mdot * (THalf - 1) * eq.gammaOverGammaMinusOne / o.efficiencyCompressor
  { s with
    compressor := { s.compressor with
      massFlowIn := (1 - dt) * s.compressor.massFlowIn + dt * mdot
      massFlowOut := (1 - dt) * s.compressor.massFlowOut + dt * fluxRho * o.areaTubeInlet
      power := (1 - dt) * s.compressor.power + dt * increase }
    fuelConsumption := s.fuelConsumption + fluxSpec * o.areaTubeInlet * dt
    fuelRate := (1 - dt) * s.fuelRate + dt * fluxSpec * o.areaTubeInlet }

/-- `ChangeRPM`; `none` if the rotational energy would be negative. `std::clamp` is a minimum of a maximum.
/repo/src/equations/perfect_gas_mix/PlenaControl.cpp:137-175 -/
noncomputable def changeRPM (s : ControlState) (o : ControlOptions) (dt : ℝ) : Option ControlState :=
  let p := s.compressor.pressure
  let rel := (o.targetPressure - p) / o.targetPressure
  let compRate := 15 / 1000 * (1 - Real.exp (-o.mu * rel))
  let Ieff := 2 * (Real.pi * Real.pi) * o.inertialMoment
  let netto := s.turbine.power - s.compressor.power
  let dErot := if p < o.targetPressure then compRate * netto else 0
  let Erot := Ieff * s.rpm * s.rpm + dErot * dt
  if Erot / Ieff < 0 then none
  else
    let rpm := min (max (Real.sqrt (Erot / Ieff)) o.rpmmin) o.rpmmax
    let powerOut := netto - dErot
    some { s with
      rpm := rpm
      powerOut := powerOut
      efficiency := max 0 powerOut / (o.Q * s.fuelRate + 1 / 2 ^ 26)
      compressor := { s.compressor with
        secMode := if s.compressor.secMode then decide (9 / 10 * o.targetPressure < p) else decide (rel < o.secTolerance) } }

/-- The constructor of `Control`; members that are not set are zero. /repo/src/equations/perfect_gas_mix/PlenaControl.cpp:247-255 -/
noncomputable def controlInit (eq : MixEq) (o : ControlOptions) : ControlState :=
  updateCompressorFromRPM
    { rpm := o.rpmmin, compressor := ⟨0, 0, 0, 0, 0, false⟩, turbine := o.initialTurbine, powerOut := 0, fuelConsumption := 0, fuelRate := 0, efficiency := 0 } eq o

/-- The arguments of one call of `UpdatePlena`. Serves the model of /repo/src/equations/perfect_gas_mix/PlenaControl.cpp:257-265. -/
structure ControlInput where
  mdotTurbine : ℝ
  turbine : PlenumState
  fluxRho : ℝ
  fluxSpec : ℝ
  fluxRhoLast : ℝ
  dt : ℝ

/-- `Control::UpdatePlena`. /repo/src/equations/perfect_gas_mix/PlenaControl.cpp:257-265 -/
noncomputable def updatePlena (eq : MixEq) (o : ControlOptions) (i : ControlInput) (s : ControlState) : Option ControlState :=
  let s := updateTurbinePlenum s eq o i.mdotTurbine i.turbine i.fluxRhoLast i.dt
  let s := updateCompressorPlenum s eq o i.fluxRho i.fluxSpec i.dt
  changeRPM s o i.dt

/-- A history of calls. Serves the model of /repo/src/equations/perfect_gas_mix/PlenaControl.cpp:257-265. -/
noncomputable def controlRun (eq : MixEq) (o : ControlOptions) : List ControlInput → ControlState → Option ControlState
  | [], s => some s
  | i :: is, s => (updatePlena eq o i s).bind (controlRun eq o is)

/-- `ControlFeedback<1>::UpdateTurbinePlenumState`: the new plenum state and the mass flow out of it.
/repo/include/fub/equations/perfect_gas_mix/PlenaControlFeedback.hpp:161-184 -/
noncomputable def feedbackTurbine (eq : MixEq) (o : ControlOptions) (correlation : ℝ) (old : PlenumState) (fRho fRhoe dt : ℝ) : PlenumState × ℝ :=
  let pT := old.pressure
  let TT := old.temperature
  let mdotT := correlation * pT / Real.sqrt TT
  let rho := pT / TT
  let rhoe := pT * eq.gammaMinusOneInv
  let h := (rhoe + pT) / rho
  let rhoN := rho + (fRho * o.areaTubeOutlet - mdotT) * dt / o.volumeTurbine
  let rhoeN := rhoe + (fRhoe * o.areaTubeOutlet - mdotT * h) * dt / o.volumeTurbine
  let p := rhoeN * eq.gammaMinusOne
  (⟨p, p / rhoN, 0, 0, 0, false⟩, mdotT)

/-- `ControlFeedback<1>::operator()` with the fluxes of the first and the last face of the tube as arguments.
/repo/include/fub/equations/perfect_gas_mix/PlenaControlFeedback.hpp:223-230 -/
noncomputable def feedbackStep (eq : MixEq) (o : ControlOptions) (correlation fluxRho fluxSpec fluxRhoLast fluxRhoeLast dt : ℝ) (s : ControlState) : Option ControlState :=
  let r := feedbackTurbine eq o correlation s.turbine fluxRhoLast fluxRhoeLast dt
  updatePlena eq o ⟨r.2, r.1, fluxRho, fluxSpec, fluxRhoLast, dt⟩ s

end Fub
