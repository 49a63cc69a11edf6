import Mathlib.Algebra.BigOperators.Group.Finset.Basic
import Mathlib.Algebra.Order.BigOperators.Group.Finset
import Mathlib.Algebra.Order.Field.Basic
import Mathlib.Data.Fintype.BigOperators

/-!
# The reactor of the ideal gas mixture

Model of `/repo/src/equations/ideal_gas_mix/FlameMasterReactor.cpp` and of
`/repo/include/fub/equations/ideal_gas_mix/FlameMasterReactor.hpp`. Numbers are elements
of a field, species are the elements of a finite type, the mechanism is a parameter. The vector of
effective species equals the vector of species (no steady state species), as in `Burke2012`.
-/

namespace Fub

/-- The virtual functions of `FlameMasterMechanism`, `/repo/include/fub/equations/ideal_gas_mix/FlameMasterReactor.hpp:52-84`: molar masses, the pair of
enthalpies and heat capacities at a temperature, the production rates from concentrations,
temperature and pressure, and the universal gas constant. -/
structure Mechanism (S K : Type*) where
  molarMass : S → K
  thermo : K → (S → K) × (S → K)
  production : (S → K) → K → K → S → K
  gasConstant : K

/-- The part of `FlameMasterState`, `/repo/include/fub/equations/ideal_gas_mix/FlameMasterReactor.hpp:86-132`, which the functions below read or write. -/
structure ReactorState (S K : Type*) where
  massFractions : S → K
  moles : S → K
  temperature : K
  density : K
  thermoTemp : K
  enthalpies : S → K
  heatCapacities : S → K

/-- What the ODE solver did: the temperatures at which it evaluated the right-hand side, in order,
and the temperature and concentrations it stored in the vector (`OdeSolver::Integrate`, abstract). Serves the model of /repo/src/equations/ideal_gas_mix/FlameMasterReactor.cpp:400-414. -/
structure OdeRun (S K : Type*) where
  stages : List K
  temperature : K
  moles : S → K

section
variable {S K : Type*} [Fintype S] [Field K]

namespace ReactorState

/-- `UpdateMassFractionsFromMoles`, `/repo/src/equations/ideal_gas_mix/FlameMasterReactor.cpp:32-38`. -/
def updateMassFractions (m : Mechanism S K) (s : ReactorState S K) : ReactorState S K :=
  { s with massFractions := fun i => s.moles i * m.molarMass i / s.density }

/-- `UpdateMolesFromMassFractions`, `/repo/src/equations/ideal_gas_mix/FlameMasterReactor.cpp:40-46`. -/
def updateMoles (m : Mechanism S K) (s : ReactorState S K) : ReactorState S K :=
  { s with moles := fun i => s.massFractions i * s.density / m.molarMass i }

/-- `MeanY`, `/repo/src/equations/ideal_gas_mix/FlameMasterReactor.cpp:779-785`. -/
def meanY (s : ReactorState S K) (q : S → K) : K := ∑ i, q i * s.massFractions i

/-- `GetMeanMolarMass`, `/repo/src/equations/ideal_gas_mix/FlameMasterReactor.cpp:517-522`. -/
def meanMolarMass (m : Mechanism S K) (s : ReactorState S K) : K :=
  1 / ∑ i, s.massFractions i / m.molarMass i

/-- `MeanX`, `/repo/src/equations/ideal_gas_mix/FlameMasterReactor.cpp:769-777`. -/
def meanX (m : Mechanism S K) (s : ReactorState S K) (q : S → K) : K :=
  ∑ i, q i * s.massFractions i * s.meanMolarMass m / m.molarMass i

/-- `GetPressure`, `/repo/include/fub/equations/ideal_gas_mix/FlameMasterReactor.hpp:222-225`. -/
def pressure (m : Mechanism S K) (s : ReactorState S K) : K :=
  s.density * m.gasConstant / s.meanMolarMass m * s.temperature

/-- `SetDensity`, `/repo/include/fub/equations/ideal_gas_mix/FlameMasterReactor.hpp:280`. -/
def setDensity (ρ : K) (s : ReactorState S K) : ReactorState S K := { s with density := ρ }

/-- `SetPressure`, `/repo/include/fub/equations/ideal_gas_mix/FlameMasterReactor.hpp:240-243`. -/
def setPressure (m : Mechanism S K) (p : K) (s : ReactorState S K) : ReactorState S K :=
  s.setDensity (p * s.meanMolarMass m / s.temperature / m.gasConstant)

/-- `GetEnthalpy`, `/repo/src/equations/ideal_gas_mix/FlameMasterReactor.cpp:485-487`. -/
def enthalpy (s : ReactorState S K) : K := s.meanY s.enthalpies

/-- `GetCp`, `/repo/src/equations/ideal_gas_mix/FlameMasterReactor.cpp:498-500`. -/
def cp (s : ReactorState S K) : K := s.meanY s.heatCapacities

/-- `GetCv`, `/repo/src/equations/ideal_gas_mix/FlameMasterReactor.cpp:506-508`. -/
def cv (m : Mechanism S K) (s : ReactorState S K) : K :=
  s.cp - m.gasConstant / s.meanMolarMass m

/-- `GetInternalEnergy`, `/repo/src/equations/ideal_gas_mix/FlameMasterReactor.cpp:576-584`. -/
def internalEnergy (m : Mechanism S K) (s : ReactorState S K) : K :=
  s.enthalpy - m.gasConstant * (∑ i, s.massFractions i / m.molarMass i) * s.temperature

variable [LinearOrder K]

/-- `UpdateThermoState(mechanism, state, temperature)`, `/repo/src/equations/ideal_gas_mix/FlameMasterReactor.cpp:67-77`: the tables are only read
when the temperature differs from the one they were read at last. -/
def updateThermo (m : Mechanism S K) (T : K) (s : ReactorState S K) : ReactorState S K :=
  if s.thermoTemp = T then s
  else { s with enthalpies := (m.thermo T).1, heatCapacities := (m.thermo T).2, thermoTemp := T }

/-- `SetTemperature`, `/repo/src/equations/ideal_gas_mix/FlameMasterReactor.cpp:890-893`. -/
def setTemperature (m : Mechanism S K) (T : K) (s : ReactorState S K) : ReactorState S K :=
  ({ s with temperature := T } : ReactorState S K).updateThermo m T

/-- `GetEnthalpies`, `/repo/src/equations/ideal_gas_mix/FlameMasterReactor.cpp:493-496`: returns the enthalpies and refreshes the tables. -/
def getEnthalpies (m : Mechanism S K) (s : ReactorState S K) : ReactorState S K :=
  s.updateThermo m s.temperature

/-- `GetProductionRates`, `/repo/src/equations/ideal_gas_mix/FlameMasterReactor.cpp:923-933`: the concentrations are `state_.moles` as they are. -/
def productionRates (m : Mechanism S K) (s : ReactorState S K) : S → K :=
  m.production s.moles s.temperature (s.pressure m)

/-- `GetMoleFractions`, `/repo/src/equations/ideal_gas_mix/FlameMasterReactor.cpp:476-479`: refreshes `moles` and returns them. -/
def getMoleFractions (m : Mechanism S K) (s : ReactorState S K) : ReactorState S K × (S → K) :=
  (s.updateMoles m, (s.updateMoles m).moles)

/-- `Advance(dt)` for `dt > 0`, `/repo/src/equations/ideal_gas_mix/FlameMasterReactor.cpp:400-414`. Each evaluation of the right-hand side calls
`UpdateThermoState` with its own temperature (`/repo/src/equations/ideal_gas_mix/FlameMasterReactor.cpp:147`); the solver writes temperature and
moles through the vector `molesStorage`. -/
def advance (m : Mechanism S K) (run : OdeRun S K) (s : ReactorState S K) : ReactorState S K :=
  let s1 := s.updateMoles m
  let s2 := run.stages.foldl (fun x T => x.updateThermo m T) s1
  ({ s2 with temperature := run.temperature, moles := run.moles } :
    ReactorState S K).updateMassFractions m

/-- `SetMassFractions(span)`, `/repo/src/equations/ideal_gas_mix/FlameMasterReactor.cpp:845-857`. -/
def setMassFractions (m : Mechanism S K) (y : S → K) (s : ReactorState S K) :
    ReactorState S K :=
  let y0 : S → K := fun i => max 0 (y i)
  let sum := ∑ i, y0 i
  let y1 : S → K := if sum ≠ 0 then (fun i => y0 i / sum) else y0
  ({ s with massFractions := y1 } : ReactorState S K).updateMoles m

/-- The second half of `SetMoleFractions`, `/repo/src/equations/ideal_gas_mix/FlameMasterReactor.cpp:897-904` and `/repo/src/equations/ideal_gas_mix/FlameMasterReactor.cpp:909-916`. -/
def molesToMass (m : Mechanism S K) (s : ReactorState S K) : ReactorState S K :=
  let total := ∑ i, s.massFractions i * m.molarMass i
  ({ s with massFractions := fun i => s.massFractions i * (m.molarMass i / total) } :
    ReactorState S K).updateMoles m

/-- `SetMoleFractions(span)`, `/repo/src/equations/ideal_gas_mix/FlameMasterReactor.cpp:895-905`. -/
def setMoleFractions (m : Mechanism S K) (x : S → K) (s : ReactorState S K) :
    ReactorState S K :=
  (s.setMassFractions m x).molesToMass m

end ReactorState

/-- One lane of `SetMassFractionsArray(fractions)`, `/repo/src/equations/ideal_gas_mix/FlameMasterReactor.cpp:876-888`. -/
def massFractionsLane [LinearOrder K] (y : S → K) : S → K :=
  let y0 : S → K := fun i => |y i|
  let sum := ∑ i, y0 i
  let sum' := if sum > 0 then sum else 1
  fun i => y0 i / sum'

/-- One lane of `SetMassFractionsArray(fractions, mask)`, `/repo/src/equations/ideal_gas_mix/FlameMasterReactor.cpp:859-874`; `first` is the species
with index zero. -/
def massFractionsLaneMasked [LinearOrder K] [DecidableEq S] (first : S) (mask : Bool) (y : S → K) :
    S → K :=
  let y0 : S → K := fun i => max 0 (if mask then y i else if i = first then 1 else 0)
  let sum := ∑ i, y0 i
  let sum' := if sum > 0 then sum else 1
  fun i => y0 i / sum'

/-- The constructor, `/repo/src/equations/ideal_gas_mix/FlameMasterReactor.cpp:275-343`: all members are zero, the first mass fraction is one, the
moles are computed while the density is still zero, then temperature and pressure are set. -/
def freshReactor [DecidableEq S] [LinearOrder K] (m : Mechanism S K) (first : S) :
    ReactorState S K :=
  let s0 : ReactorState S K :=
    { massFractions := fun i => if i = first then 1 else 0
      moles := fun _ => 0, temperature := 0, density := 0, thermoTemp := 0
      enthalpies := fun _ => 0, heatCapacities := fun _ => 0 }
  let s1 := (s0.updateMoles m).setTemperature m 300
  let s2 := s1.setPressure m 101325
  s2.updateThermo m s2.temperature

/-- The calls of the public interface which change the scalar state. Serves the model of /repo/include/fub/equations/ideal_gas_mix/FlameMasterReactor.hpp:58-251. -/
inductive ReactorCall (S K : Type*)
  | setTemperature (T : K)
  | setDensity (ρ : K)
  | setPressure (p : K)
  | setMassFractions (y : S → K)
  | setMoleFractions (x : S → K)
  | getMoleFractions
  | getEnthalpies
  | advance (run : OdeRun S K)

/-- Effect of one call. Serves the model of /repo/include/fub/equations/ideal_gas_mix/FlameMasterReactor.hpp:58-251. -/
def ReactorCall.apply [LinearOrder K] (m : Mechanism S K)
    (s : ReactorState S K) : ReactorCall S K → ReactorState S K
  | .setTemperature T => s.setTemperature m T
  | .setDensity ρ => s.setDensity ρ
  | .setPressure p => s.setPressure m p
  | .setMassFractions y => s.setMassFractions m y
  | .setMoleFractions x => s.setMoleFractions m x
  | .getMoleFractions => (s.getMoleFractions m).1
  | .getEnthalpies => s.getEnthalpies m
  | .advance run => s.advance m run

/-- `OdeRhsAdvance`, `/repo/src/equations/ideal_gas_mix/FlameMasterReactor.cpp:95-165`: derivatives of temperature and concentrations at the
temperature `T` and the concentrations `c`, with the density `ρ` of the reactor. -/
def odeRhs (m : Mechanism S K) (ρ T : K) (c : S → K) : K × (S → K) :=
  let csum := ∑ i, c i
  let p := csum * m.gasConstant * T
  let cdot := m.production c T p
  let h := (m.thermo T).1
  let cp := (m.thermo T).2
  let num := ∑ i, (h i - m.gasConstant / m.molarMass i * T) * (cdot i * m.molarMass i)
  let meanCp := ∑ i, cp i * c i * m.molarMass i / ρ
  let meanM := ∑ i, c i * m.molarMass i / csum
  (num / (ρ * (m.gasConstant / meanM - meanCp)), cdot)

/-- The observer of `AdvanceAndFindMaxdT`, `/repo/src/equations/ideal_gas_mix/FlameMasterReactor.cpp:436-468`: the members are `oldTime`,
`oldTemperature`, `maxdT` and `argmaxdT`. -/
structure MaxdT (K : Type*) where
  oldTime : K
  oldTemperature : K
  maxdT : K
  argmaxdT : K

/-- One call of the observer with temperature `T` at time `t`, `/repo/src/equations/ideal_gas_mix/FlameMasterReactor.cpp:447-456`. -/
def MaxdT.observe [LinearOrder K] (d : MaxdT K) (T t : K) : MaxdT K :=
  let dT := (d.oldTemperature - T) / (d.oldTime - t)
  let d' := { d with oldTime := t }
  if d.maxdT < dT then { d' with maxdT := dT, argmaxdT := t } else d'

/-- The value returned by `AdvanceAndFindMaxdT` when the solver reports the accepted steps
`(t, T)`, `/repo/src/equations/ideal_gas_mix/FlameMasterReactor.cpp:458-467`. -/
def advanceAndFindMaxdT [LinearOrder K] (T0 : K) (steps : List (K × K)) : K :=
  (steps.foldl (fun (d : MaxdT K) (s : K × K) => d.observe s.2 s.1)
    (⟨0, T0, -9000, -1⟩ : MaxdT K)).argmaxdT

/-! ## The string version of `SetMassFractions` -/

/-- What `istream >> double` does after white space was skipped and a character is left: the value
it stores, the characters it did not consume, and whether the stream is still in a good state apart
from the end of file flag. The reader reaches the end of file exactly when nothing is left. Serves the model of /repo/src/equations/ideal_gas_mix/FlameMasterReactor.cpp:807-841. -/
structure NumRead (K : Type*) where
  value : K
  rest : List Char
  ok : Bool

/-- Outcome of `SetMassFractions(std::string)`. `undefined` marks the read of an uninitialised
variable, `notANumber` the division of zero by zero. Serves the model of /repo/src/equations/ideal_gas_mix/FlameMasterReactor.cpp:807-841. -/
inductive ParseOutcome (S K : Type*)
  | done (Y : S → K)
  | thrown (Y : S → K)
  | notANumber
  | undefined

/-- The loop of `SetMassFractions(std::string)`, `/repo/src/equations/ideal_gas_mix/FlameMasterReactor.cpp:807-841`, on the characters which are
left. `find` is the search for the name (`/repo/src/equations/ideal_gas_mix/FlameMasterReactor.cpp:820-829`). `operator>>` into `speciesValue` does
not write it when only white space is left (`/repo/src/equations/ideal_gas_mix/FlameMasterReactor.cpp:816`): the assignment in line 824 then reads an
uninitialised variable. After a failed read the loop ends; the test in line 835 only looks at the
end of file flag. The recursion is on an upper bound for the number of characters. -/
def massLoop [DecidableEq S] [DecidableEq K] (reader : List Char → NumRead K)
    (find : List Char → Option S) : ℕ → List Char → (S → K) → K → ParseOutcome S K
  | 0, _, _, _ => .undefined
  | fuel + 1, input, Y, sum =>
    let name := input.takeWhile (fun c => c ≠ ':')
    match input.dropWhile (fun c => c ≠ ':') with
    | [] => .thrown Y
    | _ :: rest =>
      match find name with
      | none => .thrown Y
      | some i =>
        let rest' := rest.dropWhile (fun c => c.isWhitespace)
        if rest' = [] then .undefined
        else
          let r := reader rest'
          let Y' : S → K := fun j => if j = i then r.value else Y j
          let sum' := sum + r.value
          let after := if r.ok then r.rest.dropWhile (fun c => c = ',' || c = ' ') else r.rest
          if after = [] then
            if sum' = 0 then .notANumber else .done (fun j => Y' j / sum')
          else if r.ok then massLoop reader find fuel after Y' sum'
          else .thrown Y'

/-- `SetMassFractions(std::string)`, `/repo/src/equations/ideal_gas_mix/FlameMasterReactor.cpp:795-841`. -/
def massFromString [DecidableEq S] [DecidableEq K] (reader : List Char → NumRead K)
    (find : List Char → Option S) (text : List Char) : ParseOutcome S K :=
  massLoop reader find (text.length + 1) text (fun _ => 0) 0

end

end Fub
