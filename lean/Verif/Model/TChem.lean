import Verif.Model.Newton
import Mathlib.Algebra.BigOperators.Group.Finset.Basic
import Mathlib.Data.Fintype.BigOperators
import Mathlib.Algebra.BigOperators.Fin

/-!
The reactor that uses the chemistry library TChem (`/repo/src/equations/ideal_gas_mix/TChemReactor.cpp`), the functions of the library it calls (`/repo/third_party/TChem2/src`), and the Matlab interface (`/repo/apps/matlab/TChemKinetics_.cpp`).

Numbers are elements of an ordered field; division by zero (infinity in the code) is zero. The global variables of the library that the reactor uses (the pressure `TC_pressure_`) are part of the state. Species data (molar masses, heat capacities, energies, enthalpies as functions of the temperature) are parameters. The library is used with dimensions (`TC_nonDim_ = 0`) and without tables. The integration of the reaction equations is a parameter: it tells at which states the library was evaluated and the final state. `none` is an exception or a failed assertion.
-/

namespace Fub
open Finset

variable {n : ℕ} {K : Type} [Field K]

/-- Data of a mechanism with `n + 1` species: molar masses, gas constant, heat capacities, internal energies and enthalpies per mass. /repo/third_party/TChem2/src/TC_thermo.c:564-605, 873-920 -/
structure TcLib (n : ℕ) (K : Type) where
  mass : Fin (n + 1) → K
  R : K
  cp : K → Fin (n + 1) → K
  cv : K → Fin (n + 1) → K
  u : K → Fin (n + 1) → K
  h : K → Fin (n + 1) → K

/-- `TChemReactor`: `slot` is `temperature_and_mass_fractions_[0]`, `libP` the pressure of the library. /repo/include/fub/equations/ideal_gas_mix/TChemReactor.hpp:113-128 -/
structure TcReactor (n : ℕ) (K : Type) where
  slot : K
  Y : Fin (n + 1) → K
  moles : Fin (n + 1) → K
  us : Fin (n + 1) → K
  hs : Fin (n + 1) → K
  cps : Fin (n + 1) → K
  cvs : Fin (n + 1) → K
  density : K
  pressure : K
  temperature : K
  thermoT : K
  libP : K

/-- The sum of the mass fractions over the molar masses. /repo/third_party/TChem2/src/TC_thermo.c:75-76 -/
def tcMolarSum (L : TcLib n K) (Y : Fin (n + 1) → K) : K := ∑ i, Y i / L.mass i

/-- `TC_getRhoMixMs`. /repo/third_party/TChem2/src/TC_thermo.c:58-84 -/
def tcRho (L : TcLib n K) (p T : K) (Y : Fin (n + 1) → K) : K := p / (L.R * tcMolarSum L Y * T)

/-- `TC_getRhoMixMl`. /repo/third_party/TChem2/src/TC_thermo.c:124-148 -/
def tcRhoMl (L : TcLib n K) (p T : K) (X : Fin (n + 1) → K) : K := (p * ∑ i, X i * L.mass i) / (L.R * T)

/-- `TC_getTmixMs`. /repo/third_party/TChem2/src/TC_thermo.c:195-219 -/
def tcTmix (L : TcLib n K) (p rho : K) (Y : Fin (n + 1) → K) : K := p / (L.R * tcMolarSum L Y * rho)

/-- `TC_getMs2Ml`. /repo/third_party/TChem2/src/TC_mlms.c:200-226, 270-294 -/
def tcMs2Ml (L : TcLib n K) (Y : Fin (n + 1) → K) : Fin (n + 1) → K := fun i => Y i * (1 / tcMolarSum L Y) / L.mass i

/-- `TC_getMl2Ms`. /repo/third_party/TChem2/src/TC_mlms.c:131-159 -/
def tcMl2Ms (L : TcLib n K) (X : Fin (n + 1) → K) : Fin (n + 1) → K := fun i => X i * L.mass i / ∑ j, X j * L.mass j

/-- `TC_getMs2CvMixMs`. /repo/third_party/TChem2/src/TC_thermo.c:389-416 -/
def tcCvMix (L : TcLib n K) (T : K) (Y : Fin (n + 1) → K) : K := ∑ i, Y i * L.cp T i - tcMolarSum L Y * L.R

/-- `GetUSpecMs_`. /repo/src/equations/ideal_gas_mix/TChemReactor.cpp:39-43 -/
def tcEnergy (L : TcLib n K) (T : K) (Y : Fin (n + 1) → K) : K := ∑ i, Y i * L.u T i

/-- `SetPressure`. /repo/src/equations/ideal_gas_mix/TChemReactor.cpp:207-210, /repo/third_party/TChem2/src/TC_init.c:2257-2270 -/
def tcSetPressure (r : TcReactor n K) (p : K) : TcReactor n K := { r with pressure := p, libP := p }

/-- `SetTemperature`. /repo/src/equations/ideal_gas_mix/TChemReactor.cpp:212-217 -/
def tcSetTemperature (L : TcLib n K) (r : TcReactor n K) (T : K) : TcReactor n K :=
  { r with temperature := T, slot := T, density := tcRho L r.libP T r.Y }

/-- `SetDensity`. /repo/src/equations/ideal_gas_mix/TChemReactor.cpp:199-205 -/
def tcSetDensity (L : TcLib n K) (r : TcReactor n K) (rho : K) : TcReactor n K :=
  tcSetTemperature L { r with slot := rho } (tcTmix L r.libP rho r.Y)

/-- `GetInternalEnergy`. /repo/src/equations/ideal_gas_mix/TChemReactor.cpp:229-233 -/
def tcGetEnergy (r : TcReactor n K) : K := ∑ i, r.Y i * r.us i

/-- `GetCp`. /repo/src/equations/ideal_gas_mix/TChemReactor.cpp:273-277 -/
def tcGetCp (r : TcReactor n K) : K := ∑ i, r.Y i * r.cps i

/-- `GetCv`. /repo/src/equations/ideal_gas_mix/TChemReactor.cpp:279-283 -/
def tcGetCv (r : TcReactor n K) : K := ∑ i, r.Y i * r.cvs i

/-- `GetMeanMolarMass`. /repo/src/equations/ideal_gas_mix/TChemReactor.cpp:219-227 -/
def tcMeanMolarMass (L : TcLib n K) (r : TcReactor n K) : K := 1 / tcMolarSum L r.Y

/-- An evaluation of the source term `TC_getSrcCV` or of its Jacobian: the pressure of the library is scaled so that the density is the given one. /repo/third_party/TChem2/src/TC_src.c:285-288, /repo/third_party/TChem2/src/TC_jac.c:74-77 -/
def tcSrcPressure (L : TcLib n K) (rho libP : K) (e : K × (Fin (n + 1) → K)) : K := libP * rho / tcRho L libP e.1 e.2

/-- The outcome of an integration: the states at which the library was evaluated, in order, and the final state. -/
structure TcOdeResult (n : ℕ) (K : Type) where
  evals : List (K × (Fin (n + 1) → K))
  T : K
  Y : Fin (n + 1) → K

/-- An integrator for the equations at constant volume, called with density, temperature, mass fractions and step; its source term depends on nothing else. /repo/src/equations/ideal_gas_mix/TChemReactor.cpp:311-320 -/
abbrev TcOde (n : ℕ) (K : Type) := K → K → (Fin (n + 1) → K) → K → Option (TcOdeResult n K)

/-- The part of `Advance` after the integration. /repo/src/equations/ideal_gas_mix/TChemReactor.cpp:318-323 -/
def tcAfterOde (L : TcLib n K) (r : TcReactor n K) (o : TcOdeResult n K) : TcReactor n K :=
  let p := o.evals.foldl (tcSrcPressure L r.density) r.libP
  tcSetTemperature L { r with slot := o.T, Y := o.Y, moles := tcMs2Ml L o.Y, libP := p, pressure := p } o.T

variable [LinearOrder K]

/-- The fractions without negative values, divided by their sum. /repo/src/equations/ideal_gas_mix/TChemReactor.cpp:243-251 -/
def tcClip (Y : Fin (n + 1) → K) : Fin (n + 1) → K := fun i => max 0 (Y i) / ∑ j, max 0 (Y j)

/-- `SetMassFractions`. /repo/src/equations/ideal_gas_mix/TChemReactor.cpp:242-255 -/
def tcSetMassFractions (L : TcLib n K) (r : TcReactor n K) (Y : Fin (n + 1) → K) : Option (TcReactor n K) :=
  if 0 < ∑ j, max 0 (Y j) then
    some { r with Y := tcClip Y, density := tcRho L r.libP r.slot (tcClip Y), moles := tcMs2Ml L (tcClip Y) }
  else none

/-- `SetMoleFractions` of a sequence of numbers. /repo/src/equations/ideal_gas_mix/TChemReactor.cpp:257-271 -/
def tcSetMoleFractions (L : TcLib n K) (r : TcReactor n K) (X : Fin (n + 1) → K) : Option (TcReactor n K) :=
  if 0 < ∑ j, max 0 (X j) then
    some { r with moles := tcClip X, density := tcRhoMl L r.libP r.slot (tcClip X), Y := tcMl2Ms L (tcClip X) }
  else none

/-- `SetMoleFractions` of a text, after the text was read (C125): values that were not given are zero. /repo/src/equations/ideal_gas_mix/TChemReactor.cpp:417-421 -/
def tcSetMoleText (L : TcLib n K) (r : TcReactor n K) (X : Fin (n + 1) → K) : TcReactor n K :=
  { r with moles := fun i => X i / ∑ j, X j, Y := tcMl2Ms L (fun i => X i / ∑ j, X j) }

/-- `UpdateThermoState`. /repo/src/equations/ideal_gas_mix/TChemReactor.cpp:285-294 -/
def tcUpdateThermo (L : TcLib n K) (r : TcReactor n K) : TcReactor n K :=
  if r.thermoT ≠ r.temperature then
    { r with libP := r.pressure, cps := L.cp r.temperature, cvs := L.cv r.temperature, us := L.u r.temperature, hs := L.h r.temperature, thermoT := r.temperature }
  else r

/-- `SetInternalEnergy`: the Newton iteration of C126, started at 300 K, leaves the last temperature in `slot` and the energies of the species at this temperature in `us`. /repo/src/equations/ideal_gas_mix/TChemReactor.cpp:45-130, 235-240 -/
def tcSetEnergy (L : TcLib n K) (r : TcReactor n K) (U tol : K) : Option (TcReactor n K) :=
  match setEnergy (fun T => tcEnergy L T r.Y) (fun T => tcCvMix L T r.Y) U tol 300 with
  | none => none
  | some T => some (tcSetTemperature L (tcSetPressure { r with slot := T, us := L.u T } (r.density * L.R / tcMeanMolarMass L r * T)) T)

/-- `Advance`. /repo/src/equations/ideal_gas_mix/TChemReactor.cpp:309-325 -/
def tcAdvance (L : TcLib n K) (ode : TcOde n K) (r : TcReactor n K) (dt : K) : Option (TcReactor n K) :=
  if 0 < dt then
    match ode r.density r.slot r.Y dt with
    | none => none
    | some o => some (tcAfterOde L r o)
  else some r

/-- The right-hand side of the isentropic change of pressure, first component. /repo/src/equations/ideal_gas_mix/TChemReactor.cpp:328-338 -/
def tcIsoRhs (L : TcLib n K) (r : TcReactor n K) (T p : K) : TcReactor n K × K :=
  let r' := tcSetPressure (tcSetTemperature L r T) p
  (r', 1 / (r'.density * tcGetCp r'))

/-- `SetPressureIsentropic`; the integrator evaluates the right-hand side at `evals` (temperature, pressure) and returns the temperature `T`. /repo/src/equations/ideal_gas_mix/TChemReactor.cpp:354-372 -/
def tcIsentropic (L : TcLib n K) (r : TcReactor n K) (p : K) (evals : List (K × K)) (T : K) : TcReactor n K :=
  if |p - r.pressure| < 1 / 100000 then r
  else tcSetPressure (tcSetTemperature L (evals.foldl (fun s e => (tcIsoRhs L s e.1 e.2).1) r) T) p

/-- The constructor. `t0` is the value of `thermo_temperature_`, which is not initialised; the pressure of the library starts with `lp`. /repo/src/equations/ideal_gas_mix/TChemReactor.cpp:160-191 -/
def tcInit (L : TcLib n K) (t0 lp : K) : TcReactor n K :=
  let z : Fin (n + 1) → K := fun _ => 0
  let Y0 : Fin (n + 1) → K := fun i => if i = 0 then 1 else 0
  let r : TcReactor n K := { slot := 0, Y := tcClip Y0, moles := tcMs2Ml L (tcClip Y0), us := z, hs := z, cps := z, cvs := z, density := tcRho L lp 0 (tcClip Y0), pressure := 0, temperature := 0, thermoT := t0, libP := lp }
  tcSetTemperature L (tcSetPressure r 101325) 300

/-- The calls that change a reactor. /repo/include/fub/equations/ideal_gas_mix/TChemReactor.hpp:71, 99-109 -/
inductive TcCall (n : ℕ) (K : Type) where
  | pressure (p : K)
  | density (rho : K)
  | temperature (T : K)
  | energy (U tol : K)
  | masses (Y : Fin (n + 1) → K)
  | moles (X : Fin (n + 1) → K)
  | text (X : Fin (n + 1) → K)
  | isentropic (p : K) (evals : List (K × K)) (T : K)
  | advance (dt : K)
  | update

/-- The effect of a call. /repo/src/equations/ideal_gas_mix/TChemReactor.cpp:199-421 -/
def tcCall (L : TcLib n K) (ode : TcOde n K) (r : TcReactor n K) : TcCall n K → Option (TcReactor n K)
  | .pressure p => some (tcSetPressure r p)
  | .density rho => some (tcSetDensity L r rho)
  | .temperature T => some (tcSetTemperature L r T)
  | .energy U tol => tcSetEnergy L r U tol
  | .masses Y => tcSetMassFractions L r Y
  | .moles X => tcSetMoleFractions L r X
  | .text X => some (tcSetMoleText L r X)
  | .isentropic p evals T => some (tcIsentropic L r p evals T)
  | .advance dt => tcAdvance L ode r dt
  | .update => some (tcUpdateThermo L r)

/-- A sequence of calls that ends at the first exception. -/
def tcCalls (L : TcLib n K) (ode : TcOde n K) : TcReactor n K → List (TcCall n K) → Option (TcReactor n K)
  | r, [] => some r
  | r, c :: cs => (tcCall L ode r c).bind fun r' => tcCalls L ode r' cs

/-- A column of the array of states of the Matlab interface; the last species is not stored. /repo/apps/matlab/TChemKinetics_.cpp:174-218 -/
structure MexCell (n : ℕ) (K : Type) where
  density : K
  momentum : K
  energy : K
  species : Fin n → K
  cv : K
  cp : K
  temperature : K
  pressure : K

/-- `UpdateStateFromKinetics_`. /repo/apps/matlab/TChemKinetics_.cpp:220-244 -/
def mexFromReactor (r : TcReactor n K) (velocity : K) : MexCell n K :=
  { density := r.density
    momentum := r.density * velocity
    energy := r.density * (tcGetEnergy r + 1 / 2 * velocity * velocity)
    species := fun s => r.density * tcClip r.Y s.castSucc
    cv := tcGetCv r
    cp := tcGetCp r
    temperature := r.temperature
    pressure := r.pressure }

/-- The partial densities of all species, the last one from the density. /repo/apps/matlab/TChemKinetics_.cpp:249-256, 327-334 -/
def mexFractions (c : MexCell n K) : Fin (n + 1) → K := Fin.snoc (α := fun _ => K) c.species (max 0 (c.density - ∑ s, c.species s))

/-- The body of the loop of `Advance_`. /repo/apps/matlab/TChemKinetics_.cpp:325-341 -/
def mexAdvanceCell (L : TcLib n K) (ode : TcOde n K) (dt tol : K) (r : TcReactor n K) (c : MexCell n K) : Option (TcReactor n K × MexCell n K) :=
  (tcSetMassFractions L r (mexFractions c)).bind fun r1 =>
  (tcSetEnergy L (tcSetDensity L r1 c.density) ((c.energy - 1 / 2 * c.momentum * c.momentum / c.density) / c.density) tol).bind fun r2 =>
  (tcAdvance L ode r2 dt).bind fun r3 =>
  let r4 := tcUpdateThermo L r3
  some (r4, mexFromReactor r4 (c.momentum / c.density))

/-- The loop of `Advance_`. /repo/apps/matlab/TChemKinetics_.cpp:324-342 -/
def mexAdvance (L : TcLib n K) (ode : TcOde n K) (dt tol : K) : TcReactor n K → List (MexCell n K) → Option (TcReactor n K × List (MexCell n K))
  | r, [] => some (r, [])
  | r, c :: cs => (mexAdvanceCell L ode dt tol r c).bind fun rc => (mexAdvance L ode dt tol rc.1 cs).bind fun rs => some (rs.1, rc.2 :: rs.2)

/-- The body of the loop of `SetTPX_` for numbers. /repo/apps/matlab/TChemKinetics_.cpp:383-388 -/
def mexSetTPX (L : TcLib n K) (r : TcReactor n K) (T p : K) (X : Fin (n + 1) → K) : Option (TcReactor n K × MexCell n K) :=
  (tcSetMoleFractions L r X).bind fun r1 =>
  let r2 := tcUpdateThermo L (tcSetTemperature L (tcSetPressure r1 p) T)
  some (r2, mexFromReactor r2 0)

/-- `GetEnthalpies_`. /repo/apps/matlab/TChemKinetics_.cpp:478-484 -/
def mexEnthalpies (L : TcLib n K) (r : TcReactor n K) (T : K) : TcReactor n K × (Fin (n + 1) → K) :=
  let r' := tcSetTemperature L r T
  (r', r'.hs)

/-- The mechanisms of the interface: the chosen one, the one the reactor was made from, and the flag `TC_isInit_` of the library. /repo/apps/matlab/TChemKinetics_.cpp:514-515, /repo/src/equations/ideal_gas_mix/TChemReactor.cpp:160-163, 193-197 -/
structure MexMechanism where
  chosen : Option String
  reactor : Option String
  isInit : Bool

/-- `SetMechanism_`: the new reactor is made before the old one is destroyed; `false` is an exception. /repo/apps/matlab/TChemKinetics_.cpp:145-167, /repo/src/equations/ideal_gas_mix/TChemReactor.cpp:161-163 -/
def mexSetMechanism (s : MexMechanism) (name : String) : MexMechanism × Bool :=
  if name ∈ ["Zhao2008Dme", "AramcoMech_DMEonly_74spec", "AramcoMech_woC3C4_91spec"] then
    if s.isInit then ({ s with chosen := some name }, false) else ({ chosen := some name, reactor := some name, isInit := true }, true)
  else ({ s with chosen := none }, false)

end Fub
