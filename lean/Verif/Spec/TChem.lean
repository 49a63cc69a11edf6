import Verif.Model.TChem

/-!
What users of the TChem reactor and of its Matlab interface rely on.
-/

namespace Fub
open Finset

variable {n : ℕ} {K : Type} [Field K]

/-- The law of the ideal gas between the reported density, pressure, temperature and mass fractions. -/
def TcGasLaw (L : TcLib n K) (r : TcReactor n K) : Prop :=
  r.density * (L.R * (∑ i, r.Y i / L.mass i) * r.temperature) = r.pressure

/-- The reported mole fractions are those of the reported mass fractions. -/
def TcMolesBelong (L : TcLib n K) (r : TcReactor n K) : Prop :=
  ∀ i, r.moles i = (r.Y i / L.mass i) / ∑ j, r.Y j / L.mass j

/-- Species data without zero or negative molar masses. -/
def TcDataOk [LinearOrder K] (L : TcLib n K) : Prop := L.R ≠ 0 ∧ ∀ i, 0 < L.mass i

/-- The last calls leave the density up to date: neither `SetPressure`, nor `SetMoleFractions` of a text, nor `SetPressureIsentropic` came after the last call that computes the density. -/
def tcSettled [LinearOrder K] (b : Prop) : List (TcCall n K) → Prop
  | [] => b
  | .pressure _ :: cs => tcSettled False cs
  | .text _ :: cs => tcSettled False cs
  | .isentropic _ _ _ :: cs => tcSettled False cs
  | .update :: cs => tcSettled b cs
  | .advance dt :: cs => tcSettled (b ∨ 0 < dt) cs
  | .density _ :: cs => tcSettled True cs
  | .temperature _ :: cs => tcSettled True cs
  | .energy _ _ :: cs => tcSettled True cs
  | .masses _ :: cs => tcSettled True cs
  | .moles _ :: cs => tcSettled True cs

/-- Texts give no negative fractions. -/
def TcTextOk [LinearOrder K] : TcCall n K → Prop
  | .text X => ∀ i, 0 ≤ X i
  | _ => True

/-- The call is not `SetInternalEnergy`. -/
def TcNotEnergy : TcCall n K → Prop
  | .energy _ _ => False
  | _ => True

/-- An integrator that evaluates at possible states only and at the final state last. -/
def TcOdeOk (L : TcLib n K) (ode : TcOde n K) : Prop :=
  ∀ rho T Y dt o, ode rho T Y dt = some o →
    (∃ es, o.evals = es ++ [(o.T, o.Y)]) ∧ ∀ e ∈ o.evals, e.1 ≠ 0 ∧ (∑ i, e.2 i / L.mass i) ≠ 0

/-- The result of a cell in everything but the energy: with `Y` the given fractions and `T` the temperature of the given energy, the state after the reaction at constant volume. -/
def MexReacted [LinearOrder K] (L : TcLib n K) (ode : TcOde n K) (dt tol : K) (c c' : MexCell n K) : Prop :=
  ∃ T T' Y',
    setEnergy (fun T => ∑ i, tcClip (mexFractions c) i * L.u T i) (fun T => ∑ i, tcClip (mexFractions c) i * L.cp T i - (∑ i, tcClip (mexFractions c) i / L.mass i) * L.R)
      ((c.energy - 1 / 2 * c.momentum * c.momentum / c.density) / c.density) tol 300 = some T ∧
    (0 < dt → ∃ o, ode c.density T (tcClip (mexFractions c)) dt = some o ∧ T' = o.T ∧ Y' = o.Y) ∧
    (¬ 0 < dt → T' = T ∧ Y' = tcClip (mexFractions c)) ∧
    c'.density = c.density ∧ c'.momentum = c.momentum ∧ c'.temperature = T' ∧
    c'.pressure = c.density * L.R * (∑ i, Y' i / L.mass i) * T' ∧
    c'.cp = ∑ i, Y' i * L.cp T' i ∧ c'.cv = ∑ i, Y' i * L.cv T' i ∧
    (∀ s, c'.species s = c.density * (max 0 (Y' s.castSucc) / ∑ j, max 0 (Y' j)))

/-- The result of a cell with its energy. -/
def MexReactedEnergy [LinearOrder K] (L : TcLib n K) (ode : TcOde n K) (dt tol : K) (c c' : MexCell n K) : Prop :=
  ∃ T T' Y',
    setEnergy (fun T => ∑ i, tcClip (mexFractions c) i * L.u T i) (fun T => ∑ i, tcClip (mexFractions c) i * L.cp T i - (∑ i, tcClip (mexFractions c) i / L.mass i) * L.R)
      ((c.energy - 1 / 2 * c.momentum * c.momentum / c.density) / c.density) tol 300 = some T ∧
    (0 < dt → ∃ o, ode c.density T (tcClip (mexFractions c)) dt = some o ∧ T' = o.T ∧ Y' = o.Y) ∧
    (¬ 0 < dt → T' = T ∧ Y' = tcClip (mexFractions c)) ∧
    c'.energy = c.density * ((∑ i, Y' i * L.u T' i) + 1 / 2 * (c.momentum / c.density) * (c.momentum / c.density))

/-- The cached values of the species belong to the temperature of the last `UpdateThermoState`. -/
def TcCacheOk (L : TcLib n K) (r : TcReactor n K) : Prop :=
  r.cps = L.cp r.thermoT ∧ r.cvs = L.cv r.thermoT ∧ r.hs = L.h r.thermoT

end Fub
