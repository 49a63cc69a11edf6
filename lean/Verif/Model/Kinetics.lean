import Verif.Model.GasMix

/-!
# Model of the chemical source terms for the gas mixture

Source: `/repo/src/equations/perfect_gas_mix/ArrheniusKinetics.cpp`, `/repo/src/equations/perfect_gas_mix/IgnitionDelayKinetics.cpp`,
`/repo/include/fub/equations/perfect_gas_mix/PlenaControl.hpp`.

Simplifications: exact real numbers; one lane of the arrays, as in the model of the gas mixture; the approximate comparisons of sums with one are exact.
A failed assertion is `none`. The loop over the cells of a patch, the ghost cells and the constant stable time step are not modelled.
-/

namespace Fub
open Finset
variable {d s t : ℕ}

/-! ### Arrhenius kinetics -/

/-- `ArrheniusKineticsOptions`. /repo/include/fub/equations/perfect_gas_mix/ArrheniusKinetics.hpp:38-58 -/
structure ArrheniusOptions where
  Q : ℝ
  EA : ℝ
  B : ℝ
  Tswitch : ℝ

/-- `std::sqrt(std::numeric_limits<double>::epsilon())`, which is exactly `2 ^ (-26)`. /repo/src/equations/perfect_gas_mix/ArrheniusKinetics.cpp:64 -/
noncomputable def kinEps : ℝ := 1 / 2 ^ 26

/-- The change of the first mole fraction. /repo/src/equations/perfect_gas_mix/ArrheniusKinetics.cpp:64-74 -/
noncomputable def arrheniusChange (o : ArrheniusOptions) (dt T X0 : ℝ) : ℝ :=
  let rate := Real.exp (o.EA * (1 - 1 / T))
  let xNew := if 1 / 100000 ≤ X0 then X0 * Real.exp (-o.B * dt * rate) else kinEps
  if o.Tswitch ≤ T then xNew - X0 else kinEps

/-- `Advance_` of the Arrhenius kinetics. The number of species is `s + 1`, which is the first assertion.
/repo/src/equations/perfect_gas_mix/ArrheniusKinetics.cpp:53-85 -/
noncomputable def arrheniusAdvance (o : ArrheniusOptions) (eq : MixEq) (dt : ℝ) (q : MixComplete d (s + 1) t) : Option (MixComplete d (s + 1) t) :=
  match kinFromMixArray q with
  | none => none
  | some kin =>
    if ∑ i, kin.fractions i = 1 ∧ 0 < dt then
      let X := kin.fractions
      let dX := arrheniusChange o dt kin.temperature (X 0)
      let X' := Function.update (Function.update X 0 (X 0 + dX)) 1 (X 1 - dX)
      if ∑ i, X' i = 1 then
        let q1 := mixFromKinArray eq { kin with fractions := X' } (mixVelocity q.toMixCons)
        some (mixCompleteArray eq { q1.toMixCons with energy := q1.energy + -o.Q * q1.density * dX })
      else none
    else none

/-- A number of time steps after another. Serves the model of /repo/include/fub/equations/perfect_gas_mix/ArrheniusKinetics.hpp:38-58. -/
noncomputable def arrheniusSteps (o : ArrheniusOptions) (eq : MixEq) : List ℝ → MixComplete d (s + 1) t → Option (MixComplete d (s + 1) t)
  | [], q => some q
  | dt :: dts, q => (arrheniusAdvance o eq dt q).bind (arrheniusSteps o eq dts)

/-! ### Ignition delay kinetics -/

/-- `IgnitionDelayKineticsOptions`. /repo/include/fub/equations/perfect_gas_mix/IgnitionDelayKinetics.hpp:82-113 -/
structure IgnitionOptions where
  Yign : ℝ
  Yinit : ℝ
  tau : ℝ
  RB : ℝ
  RC : ℝ
  RE : ℝ
  R2A : ℝ
  R2C : ℝ
  R2E : ℝ
  E : ℝ
  C : ℝ
  Tdiff : ℝ

/-- The rate of the first reaction. /repo/src/equations/perfect_gas_mix/IgnitionDelayKinetics.cpp:55-61 -/
noncomputable def ignitionRate (o : IgnitionOptions) (T : ℝ) : ℝ :=
  -Real.log (o.Yign / o.Yinit / o.tau) + T ^ o.RB * Real.exp (o.RC * (1 - o.RE / T)) + o.R2A * Real.exp (o.R2C * (1 - o.R2E / T))

/-- `Advance_` of the ignition delay kinetics. The number of species is `s + 2`, which is the first assertion.
/repo/src/equations/perfect_gas_mix/IgnitionDelayKinetics.cpp:45-87 -/
noncomputable def ignitionAdvance (o : IgnitionOptions) (eq : MixEq) (dt : ℝ) (q : MixComplete d (s + 2) t) : Option (MixComplete d (s + 2) t) :=
  match kinFromMixArray q with
  | none => none
  | some kin =>
    if ∑ i, kin.fractions i = 1 ∧ 0 < dt then
      let X := kin.fractions
      let T := kin.temperature
      let rate := ignitionRate o T
      let fDiff := (1 - Real.exp (-rate * dt)) * X 0
      let x0a := X 0 - fDiff
      let x1a := min (max (X 1 + fDiff) 0) 1
      let rate2 := Real.exp (o.C * (1 - o.E / T))
      let coeff := if x0a ≤ o.Yign * (1 - X 2) then 1 - Real.exp (-rate2 * dt) else 0
      if 0 ≤ coeff ∧ coeff ≤ 1 then
        let fr1 := coeff * x1a
        let x1b := x1a - fr1
        let x2b := min (max (X 2 + fr1) 0) 1
        let fr0 := coeff * x0a
        let x0c := x0a - fr0
        let x2c := min (max (x2b + fr0) 0) 1
        let X' := Function.update (Function.update (Function.update X 0 x0c) 1 x1b) 2 x2c
        if ∑ i, X' i = 1 then
          some (mixFromKinArray eq { kin with fractions := X', temperature := T + o.Tdiff * (fr0 + fr1) } (mixVelocity q.toMixCons))
        else none
      else none
    else none

/-- A number of time steps after another. Serves the model of /repo/include/fub/equations/perfect_gas_mix/IgnitionDelayKinetics.hpp:82-113. -/
noncomputable def ignitionSteps (o : IgnitionOptions) (eq : MixEq) : List ℝ → MixComplete d (s + 2) t → Option (MixComplete d (s + 2) t)
  | [], q => some q
  | dt :: dts, q => (ignitionAdvance o eq dt q).bind (ignitionSteps o eq dts)

/-! ### Temperature for an ignition delay -/

/-- `IgnitionDelay`; `gamma` is the member of the equation. /repo/include/fub/equations/perfect_gas_mix/PlenaControl.hpp:44-55 -/
noncomputable def ignitionDelay (gamma : ℝ) (o : ArrheniusOptions) (Y T eps : ℝ) : ℝ :=
  let gm1 := gamma - 1
  let TT := T / (gm1 * o.Q * max Y eps)
  let Ea0 := o.EA * (1 / T)
  let B0 := o.B * Real.exp (o.EA * (1 - 1 / T))
  TT / (B0 * Ea0) * (1 + (2 + TT) / Ea0)

/-- `dIgnitionDelay_dT`. /repo/include/fub/equations/perfect_gas_mix/PlenaControl.hpp:61-79 -/
noncomputable def ignitionDelayDeriv (gamma : ℝ) (o : ArrheniusOptions) (Y T eps : ℝ) : ℝ :=
  let gm1 := gamma - 1
  let TQ := T / (gm1 * o.Q * max Y eps)
  let TE := T / o.EA
  let A := 1 / (o.B * o.EA * gm1 * o.Q * Y)
  A * o.EA * ((-1 + 2 * TE) * (1 + TE * (2 + TQ)) + 2 * TE * TE * (1 + TQ)) * Real.exp (-o.EA * (1 - 1 / T))

/-- `TemperatureForIgnitionDelay`, at most `n` passes of the loop; `none` if the loop is still running then. The code has no limit.
/repo/include/fub/equations/perfect_gas_mix/PlenaControl.hpp:85-102 -/
noncomputable def temperatureForDelay (gamma : ℝ) (o : ArrheniusOptions) (tign Y eps : ℝ) : ℕ → ℝ → Option ℝ
  | 0, T => if eps < |ignitionDelay gamma o Y T eps - tign| then none else some T
  | n + 1, T =>
    if eps < |ignitionDelay gamma o Y T eps - tign| then
      temperatureForDelay gamma o tign Y eps n (T - (ignitionDelay gamma o Y T eps - tign) / ignitionDelayDeriv gamma o Y T eps)
    else some T

end Fub
