import Verif.Model.GasMix
import Verif.Model.GasExact

/-!
# Model of the boundary conditions that require a mass flow

Source: `/repo/include/fub/AMReX/cutcell/boundary_condition/TurbineMassflowBoundary.hpp`, `/repo/include/fub/equations/RequireMassflow.hpp`,
`/repo/src/AMReX/boundary_condition/MassflowBoundary.cpp`.

Simplifications: exact real numbers. The templates over the equation are modelled for `PerfectGasMix` (Jirasek) and `PerfectGas` (exact Riemann problem). The averages over boxes and the loops
over the ghost cells are not part of this model. An exception is `none`. If the Newton iteration reaches a velocity above the maximal one, `std::pow` of a negative base gives not-a-number and the iteration of the code
ends with this velocity; the model continues with the value of `Real.rpow`.
-/

namespace Fub
open Finset
variable {d s t : ℕ}

/-- `ComputeRequiredMassflow`; `corr` is the option `massflow_correlation`.
/repo/include/fub/AMReX/cutcell/boundary_condition/TurbineMassflowBoundary.hpp:351-379 -/
noncomputable def requiredMassflow (eq : MixEq) (corr : ℝ) (dir : Fin (d + 1)) (q : MixComplete d s t) : ℝ :=
  let p := q.pressure
  let c := q.speedOfSound
  let T := mixTemperature q
  let c2 := c * c
  let u := mixVelocity q.toMixCons dir
  let u2 := u * u
  let Ma2 := u2 / c2
  let gm1 := eq.gamma - 1
  let oogm1 := 1 / gm1
  let alpha0 := 1 + 1 / 2 * Ma2 * gm1
  let p0 := p * alpha0 ^ (eq.gamma * oogm1)
  let T0 := T * alpha0
  corr * p0 / Real.sqrt T0

/-! ### Isentropic change of state -/

/-- The next direction `(dir_v + 1) % Rank`. /repo/include/fub/AMReX/cutcell/boundary_condition/TurbineMassflowBoundary.hpp:405 -/
def tangentDir (dir : Fin (d + 1)) : Fin (d + 1) := dir + 1

/-- The function `f` whose zero is the velocity with the required mass flow. /repo/include/fub/AMReX/cutcell/boundary_condition/TurbineMassflowBoundary.hpp:434-436 -/
noncomputable def jirasekF (alpha beta gmInv v2 un : ℝ) : ℝ := un * (1 - alpha * (un * un + v2)) ^ gmInv - beta

/-- The function `Df`. /repo/include/fub/AMReX/cutcell/boundary_condition/TurbineMassflowBoundary.hpp:437-442 -/
noncomputable def jirasekDf (alpha gmInv v2 un : ℝ) : ℝ :=
  let x := 1 - alpha * (un * un + v2)
  x ^ gmInv - 2 * alpha * un * un * gmInv * x ^ (gmInv - 1)

/-- `RequireMassflow_Jirasek::operator()`; `tol` and `limit` are the defaults of the Newton iteration. The operator is `noexcept`, so that the exception of the Newton iteration terminates the program.
/repo/include/fub/AMReX/cutcell/boundary_condition/TurbineMassflowBoundary.hpp:390-454 -/
noncomputable def jirasek (eq : MixEq) (tol : ℝ) (limit : Int) (required area : ℝ) (dir : Fin (d + 1)) (source : MixComplete d s t) : Option (MixComplete d s t) :=
  let prim := mixPrim source
  let rho := source.density
  let p := source.pressure
  let gamma := eq.gamma
  let c := source.speedOfSound
  let c2 := c * c
  let u := prim.velocity dir
  let v := prim.velocity (tangentDir dir)
  let u2 := u * u
  let v2 := v * v
  let Ma2 := (u2 + v2) / c2
  let gammaMinus := gamma - 1
  let gammaMinusHalf := 1 / 2 * gammaMinus
  let gammaMinusInv := 1 / gammaMinus
  let gammaOverGammaMinus := gamma * gammaMinusInv
  let gammaPlus := gamma + 1
  let alpha0 := 1 + Ma2 * gammaMinusHalf
  let p0 := p * alpha0 ^ gammaOverGammaMinus
  let rho0 := rho * alpha0 ^ gammaMinusInv
  let c02 := c2 + gammaMinusHalf * (u2 + v2)
  let alpha := gammaMinusHalf / c02
  let beta := required / (area * rho0)
  match newtonIteration (jirasekF alpha beta gammaMinusInv v2) (jirasekDf alpha gammaMinusInv v2) u tol limit with
  | none => none
  | some un =>
    let critical2 := 2 * c02 / (gamma + 1)
    let laval2 := min ((un * un + v2) / critical2) 1
    let alphan := 1 - gammaMinus / gammaPlus * laval2
    some (mixFromPrim eq { prim with
      density := rho0 * alphan ^ gammaMinusInv
      pressure := p0 * alphan ^ gammaOverGammaMinus
      velocity := fun i => if i = dir then un else prim.velocity i })

/-! ### Exact solution of the Riemann problem -/

/-- `f_shock`. /repo/include/fub/AMReX/cutcell/boundary_condition/TurbineMassflowBoundary.hpp:502-507 -/
noncomputable def mfFShock (g : ℝ) (l : GasComplete d) (p : ℝ) : ℝ :=
  let A := 2 / ((g + 1) * l.density)
  let B := l.pressure * ((g - 1) / (g + 1))
  let ooQ := Real.sqrt (A / (p + B))
  (p - l.pressure) * ooQ

/-- `u_shock`. /repo/include/fub/AMReX/cutcell/boundary_condition/TurbineMassflowBoundary.hpp:510-512 -/
noncomputable def mfUShock (g : ℝ) (dir : Fin d) (l : GasComplete d) (p : ℝ) : ℝ := l.momentum dir / l.density - mfFShock g l p

/-- `rho_shock`. /repo/include/fub/AMReX/cutcell/boundary_condition/TurbineMassflowBoundary.hpp:515-523 -/
noncomputable def mfRhoShock (g : ℝ) (l : GasComplete d) (p : ℝ) : ℝ :=
  let prel := p / l.pressure
  let nom := (g - 1) / (g + 1) + prel
  let denom := (g - 1) / (g + 1) * prel + 1
  l.density * (nom / denom)

/-- `f_rarefaction`. /repo/include/fub/AMReX/cutcell/boundary_condition/TurbineMassflowBoundary.hpp:526-531 -/
noncomputable def mfFRar (g : ℝ) (l : GasComplete d) (p : ℝ) : ℝ := 2 * l.speedOfSound * (1 / (g - 1)) * ((p / l.pressure) ^ ((g - 1) / 2 / g) - 1)

/-- `u_rarefaction`. /repo/include/fub/AMReX/cutcell/boundary_condition/TurbineMassflowBoundary.hpp:534-536 -/
noncomputable def mfURar (g : ℝ) (dir : Fin d) (l : GasComplete d) (p : ℝ) : ℝ := l.momentum dir / l.density - mfFRar g l p

/-- `rho_rarefaction`. /repo/include/fub/AMReX/cutcell/boundary_condition/TurbineMassflowBoundary.hpp:539-544 -/
noncomputable def mfRhoRar (g : ℝ) (l : GasComplete d) (p : ℝ) : ℝ := l.density * (p / l.pressure) ^ (1 / g)

/-- `delta_rhou`: what the mass flow behind the wave exceeds the required one. /repo/include/fub/AMReX/cutcell/boundary_condition/TurbineMassflowBoundary.hpp:546-564 -/
noncomputable def mfDelta (g : ℝ) (dir : Fin d) (l : GasComplete d) (rhou : ℝ) (p : ℝ) : ℝ :=
  if p < l.pressure then mfRhoRar g l p * mfURar g dir l p - rhou else mfRhoShock g l p * mfUShock g dir l p - rhou

/-- The first loop of `FindLowerAndUpperBounds`; the argument `counter` is the value of the counter.
/repo/include/fub/AMReX/cutcell/boundary_condition/TurbineMassflowBoundary.hpp:573-580 -/
noncomputable def mfLower (delta : ℝ → ℝ) : ℕ → ℝ → Option ℝ
  | 0, _ => none
  | counter + 1, lower =>
    let lower := lower * (1 / 2)
    if delta lower < 0 then mfLower delta counter lower else some lower

/-- The second loop of `FindLowerAndUpperBounds`. /repo/include/fub/AMReX/cutcell/boundary_condition/TurbineMassflowBoundary.hpp:581-589 -/
noncomputable def mfUpper (delta : ℝ → ℝ) : ℕ → ℝ → Option ℝ
  | 0, _ => none
  | counter + 1, upper =>
    let upper := upper * 2
    if 0 < delta upper then mfUpper delta counter upper else some upper

/-- `FindLowerAndUpperBounds`. /repo/include/fub/AMReX/cutcell/boundary_condition/TurbineMassflowBoundary.hpp:566-591 -/
noncomputable def mfBounds (delta : ℝ → ℝ) (p0 : ℝ) : Option (ℝ × ℝ) :=
  if delta p0 < 0 then (mfLower delta 12 p0).map fun lower => (lower, p0) else (mfUpper delta 12 p0).map fun upper => (p0, upper)

/-- The loop of `boost::math::tools::bisect`, a library function, after its documentation: the half of the interval in which the sign changes is kept, an exact zero ends the loop. Serves the model of /repo/include/fub/AMReX/cutcell/boundary_condition/TurbineMassflowBoundary.hpp:456-615. -/
noncomputable def bisectLoop (f : ℝ → ℝ) (tol : ℝ → ℝ → Bool) : ℕ → ℝ → ℝ → ℝ × ℝ
  | 0, lo, hi => (lo, hi)
  | n + 1, lo, hi =>
    if tol lo hi then (lo, hi)
    else
      let mid := (lo + hi) / 2
      if f mid = 0 then (mid, mid)
      else if f mid * f lo < 0 then bisectLoop f tol n lo mid
      else bisectLoop f tol n mid hi

/-- `boost::math::tools::bisect`: zeros at the ends are returned, without a change of sign it throws. Serves the model of /repo/include/fub/AMReX/cutcell/boundary_condition/TurbineMassflowBoundary.hpp:456-615. -/
noncomputable def bisect (f : ℝ → ℝ) (tol : ℝ → ℝ → Bool) (n : ℕ) (lo hi : ℝ) : Option (ℝ × ℝ) :=
  if f lo = 0 then some (lo, lo)
  else if f hi = 0 then some (hi, hi)
  else if hi ≤ lo then none
  else if 0 ≤ f lo * f hi then none
  else some (bisectLoop f tol n lo hi)

/-- `RequireMassflow_SolveExactRiemannProblem::operator()`; `n` and `tol` are the limit of iterations and the tolerance of the bisection.
/repo/include/fub/AMReX/cutcell/boundary_condition/TurbineMassflowBoundary.hpp:456-615, the same in /repo/include/fub/equations/RequireMassflow.hpp:91-250 -/
noncomputable def requireMassflow (eq : GasEq) (tol : ℝ → ℝ → Bool) (n : ℕ) (required area : ℝ) (dir : Fin d) (source : GasComplete d) : Option (GasComplete d) :=
  let delta := mfDelta eq.gamma dir source (required / area)
  match mfBounds delta source.pressure with
  | none => none
  | some (lower, upper) =>
    match bisect delta tol n lower upper with
    | none => none
    | some (lo, hi) =>
      let p := lo + 1 / 2 * (hi - lo)
      let u := if p < source.pressure then mfURar eq.gamma dir source p else mfUShock eq.gamma dir source p
      let rho := if p < source.pressure then mfRhoRar eq.gamma source p else mfRhoShock eq.gamma source p
      some (gasFromPrim eq ⟨rho, fun i => if i = dir then u else (gasPrim source).velocity i, p⟩)

/-- The operator that computes density and velocity of the left state from the star state and the left pressure. /repo/include/fub/equations/RequireMassflow.hpp:24-71 -/
noncomputable def massflowLeft (g rhoStar uStar pStar pL : ℝ) : ℝ × ℝ :=
  let r := (g - 1) / (g + 1)
  let x := pStar / pL
  let rhoShock := rhoStar * (r * x + 1) / (r + x)
  let rhoRar := rhoStar / x ^ (1 / g)
  let fShock := (pStar - pL) * Real.sqrt (2 / ((g + 1) * rhoShock) / (pStar + pL * r))
  let aL := Real.sqrt (g * pL / rhoRar)
  let fRar := 2 * aL * (1 / (g - 1)) * ((pStar / pL) ^ ((g - 1) / 2 / g) - 1)
  (if pL < pStar then rhoShock else rhoRar, if pL < pStar then uStar + fShock else uStar + fRar)

/-! ### Inversion of the mass flux -/

/-- The lambda of `MassflowBoundary::ComputeBoundaryState` for side 0: the velocity of the ghost cell in units of the speed of sound; `m` is the required mass flux per area in units of
density times speed of sound and `uR` the scaled velocity of the inner cell. /repo/src/AMReX/boundary_condition/MassflowBoundary.cpp:84-102 -/
noncomputable def massflowVelocity0 (m uR : ℝ) : ℝ :=
  if m = uR then uR
  else if m < uR then
    if 1 ≤ m then m
    else if -1 < m then (2 * m + uR * (m - 1)) / (m + 1)
    else -1
  else
    if 2 - m ≤ uR then m else Real.sqrt (4 * m + (uR - 1) * (uR - 1)) - 1

/-- The lambda of `MassflowBoundary::ComputeBoundaryState` for side 1. /repo/src/AMReX/boundary_condition/MassflowBoundary.cpp:103-122 -/
noncomputable def massflowVelocity1 (m uL : ℝ) : ℝ :=
  if m = uL then uL
  else if uL < m then
    if 1 ≤ m then 1
    else if -1 < m then (2 * m - uL * (m + 1)) / (1 - m)
    else m
  else
    if m ≤ -(2 - uL) then m else 1 - Real.sqrt ((uL + 1) * (uL + 1) - 4 * m)

end Fub
