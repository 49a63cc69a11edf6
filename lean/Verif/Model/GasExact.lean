import Verif.Model.Gas
import Verif.Model.Util

/-!
# Model of the exact Riemann solver for the perfect gas

Source: `/repo/src/equations/perfect_gas/ExactRiemannSolver.hpp`, `/repo/include/fub/equations/perfect_gas/ExactRiemannSolver.hpp`.

Simplifications: exact real numbers. The rank is a parameter `d`. The functions for the left and for the right state are the same lambda with other
captures and are modelled once. A failed assertion or the exception of the Newton iteration is `none`. The array versions call the scalar version for each lane.
-/

namespace Fub
variable {d : ℕ}

/-- The functions `f_left` and `f_right`; `rho`, `p`, `a` are density, pressure and speed of sound of the left or the right state.
/repo/src/equations/perfect_gas/ExactRiemannSolver.hpp:37-53,62-73 -/
noncomputable def gasWave (g rho p a x : ℝ) : ℝ :=
  if p < x then (x - p) * Real.sqrt (2 / ((g + 1) * rho) / (x + (g - 1) / (g + 1) * p))
  else 2 * a / (g - 1) * ((x / p) ^ (1 / 2 * (g - 1) / g) - 1)

/-- The functions `df_left` and `df_right`. /repo/src/equations/perfect_gas/ExactRiemannSolver.hpp:54-60,74-80 -/
noncomputable def gasWaveD (g rho p a x : ℝ) : ℝ :=
  if p < x then
    Real.sqrt (2 / ((g + 1) * rho) / ((g - 1) / (g + 1) * p + x)) * (1 - 1 / 2 * (x - p) / ((g - 1) / (g + 1) * p + x))
  else (x / p) ^ (-(1 / 2) * (g + 1) / g) / (rho * a)

/-- The function `f` whose zero is the pressure between the waves. /repo/src/equations/perfect_gas/ExactRiemannSolver.hpp:82-88 -/
noncomputable def gasExactF (g : ℝ) (dir : Fin d) (left right : GasComplete d) (x : ℝ) : ℝ :=
  gasWave g right.density right.pressure right.speedOfSound x + gasWave g left.density left.pressure left.speedOfSound x +
    (right.momentum dir / right.density - left.momentum dir / left.density)

/-- The function `df`. /repo/src/equations/perfect_gas/ExactRiemannSolver.hpp:89 -/
noncomputable def gasExactDF (g : ℝ) (left right : GasComplete d) (x : ℝ) : ℝ :=
  gasWaveD g right.density right.pressure right.speedOfSound x + gasWaveD g left.density left.pressure left.speedOfSound x

/-- `ComputeMiddleState`: pressure and velocity between the waves. The tolerance and the `limit` 5000 are the defaults of the Newton iteration.
For `x = 0` the code divides by the infinite value of `df` and stays at zero, as does the model.
/repo/src/equations/perfect_gas/ExactRiemannSolver.hpp:34-97, /repo/include/fub/NewtonIteration.hpp:28-30 -/
noncomputable def gasMiddle (eq : GasEq) (limit : Int) (left right : GasComplete d) (dir : Fin d) : Option (ℝ × ℝ) :=
  match newtonIteration (gasExactF eq.gamma dir left right) (gasExactDF eq.gamma left right)
      (1 / 2 * (left.pressure + right.pressure)) (1 / 10 ^ 7) limit with
  | none => none
  | some pM =>
    let fL := gasWave eq.gamma left.density left.pressure left.speedOfSound pM
    let fR := gasWave eq.gamma right.density right.pressure right.speedOfSound pM
    let uL := left.momentum dir / left.density
    let uR := right.momentum dir / right.density
    some (pM, 1 / 2 * (uL + uR) + 1 / 2 * (fR - fL))

/-- `ComputeSignals`. /repo/src/equations/perfect_gas/ExactRiemannSolver.hpp:105-148 -/
noncomputable def gasExactSignals (eq : GasEq) (limit : Int) (left right : GasComplete d) (dir : Fin d) : Option (ℝ × ℝ) :=
  if 0 < left.density ∧ 0 < left.pressure ∧ 0 < right.density ∧ 0 < right.pressure then
    match gasMiddle eq limit left right dir with
    | none => none
    | some (pM, _) =>
      if 0 < pM then
        let g := eq.gamma
        let uL := left.momentum dir / left.density
        let uR := right.momentum dir / right.density
        some
          (if left.pressure < pM then uL - left.speedOfSound * Real.sqrt (((g + 1) * (pM / left.pressure) + (g - 1)) / (2 * g))
            else uL - left.speedOfSound,
           if right.pressure < pM then uR + right.speedOfSound * Real.sqrt (((g + 1) * (pM / right.pressure) + (g - 1)) / (2 * g))
            else uR + right.speedOfSound)
      else none
  else none

/-- `set_momentum` and `from_prim`: the state with density `rho`, normal velocity `u`, pressure `p` and the tangential velocities of `side`.
/repo/src/equations/perfect_gas/ExactRiemannSolver.hpp:211-226,363-378 -/
noncomputable def exactState (eq : GasEq) (dir : Fin d) (side : GasComplete d) (rho u p : ℝ) : GasComplete d :=
  let momentum : Fin d → ℝ := fun i => if i = dir then rho * u else rho * (side.momentum i / side.density)
  ⟨rho, momentum, p * eq.gammaMinus1Inv + gasKinetic rho momentum, p, Real.sqrt (eq.gamma * p / rho)⟩

/-- `SolveRiemannProblem` with given middle state, sampled at the speed `lambda = dx / dt`; `old` is the content of the output argument.
/repo/src/equations/perfect_gas/ExactRiemannSolver.hpp:355-505. The lines 227-353 of the other overload are the same with `lambda = 0`. -/
noncomputable def gasExactSample (eq : GasEq) (pM uM : ℝ) (old left right : GasComplete d) (lambda : ℝ) (dir : Fin d) : Option (GasComplete d) :=
  if 0 < left.density ∧ 0 < right.density then
    if 0 < left.pressure ∧ 0 < right.pressure ∧ 0 < pM then
      let g := eq.gamma
      let gRatio := (g - 1) / (g + 1)
      if lambda ≤ uM then
        let uL := left.momentum dir / left.density
        let aL := left.speedOfSound
        let pL := left.pressure
        let pRatio := pM / pL
        if pL < pM then
          let shockSpeed := uL - aL * Real.sqrt (((g + 1) * pRatio + (g - 1)) / (2 * g))
          if shockSpeed < lambda then
            some (exactState eq dir left (left.density * (pRatio + gRatio) / (gRatio * pRatio + 1)) uM pM)
          else some left
        else
          let aM := aL * pRatio ^ ((g - 1) / (2 * g))
          if lambda < uL - aL then some left
          else if uM - aM < lambda then some (exactState eq dir left (left.density * pRatio ^ (1 / g)) uM pM)
          else
            let b := 2 / (g + 1) + gRatio * (uL - lambda) / aL
            some (exactState eq dir left (left.density * b ^ (2 / (g - 1))) (2 / (g + 1) * (aL + 1 / 2 * (g - 1) * uL + lambda))
              (pL * b ^ (2 * g / (g - 1))))
      else
        let uR := right.momentum dir / right.density
        let aR := right.speedOfSound
        let pR := right.pressure
        let pRatio := pM / pR
        if pR < pM then
          let shockSpeed := uR + aR * Real.sqrt (((g + 1) * pRatio + (g - 1)) / (2 * g))
          if lambda < shockSpeed then
            some (exactState eq dir right (right.density * (pRatio + gRatio) / (gRatio * pRatio + 1)) uM pM)
          else some right
        else
          let aM := aR * pRatio ^ ((g - 1) / (2 * g))
          if uR + aR ≤ lambda then some right
          else if lambda ≤ uM + aM then some (exactState eq dir right (right.density * pRatio ^ (1 / g)) uM pM)
          else
            let b := 2 / (g + 1) - gRatio * (uR - lambda) / aR
            some (exactState eq dir right (right.density * b ^ (2 / (g - 1))) (2 / (g + 1) * (-aR + 1 / 2 * (g - 1) * uR + lambda))
              (pR * b ^ (2 * g / (g - 1))))
    else none
  else some old

/-- `SolveRiemannProblem`. /repo/src/equations/perfect_gas/ExactRiemannSolver.hpp:204-353 -/
noncomputable def gasExactSolve (eq : GasEq) (limit : Int) (old left right : GasComplete d) (dir : Fin d) : Option (GasComplete d) :=
  if 0 < left.density ∧ 0 < right.density then
    if 0 < left.pressure ∧ 0 < right.pressure then
      match gasMiddle eq limit left right dir with
      | none => none
      | some (pM, uM) => gasExactSample eq pM uM old left right 0 dir
    else none
  else some old

/-- The state `Complete zero{equation_}`. /repo/include/fub/State.hpp:354-371 -/
def GasComplete.zero : GasComplete d := ⟨0, fun _ => 0, 0, 0, 0⟩

/-- `SolveRiemannProblem`, array version with mask, one lane; without mask it is the same with `mask = true`.
/repo/src/equations/perfect_gas/ExactRiemannSolver.hpp:172-202 -/
noncomputable def gasExactSolveMasked (eq : GasEq) (limit : Int) (left right : GasComplete d) (mask : Bool) (dir : Fin d) : Option (GasComplete d) :=
  if mask then gasExactSolve eq limit .zero left right dir else some .zero

end Fub
