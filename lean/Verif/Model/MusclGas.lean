import Verif.Model.Hllem
import Verif.Model.Limiter

/-!
The second and third order flux methods for the perfect gas: MUSCL-Hancock in primitive and in characteristic variables and the three stage Runge-Kutta method.

Simplifications as in Verif/Model/Gas.lean: real numbers, one lane of each array.
-/

namespace Fub

open Finset

variable {d : ℕ}

/-! ### MusclHancockPrim -/

/-- The limiter lambda of `MusclHancockPrim`, one lane; `eps` is the literal `1e-12`. /repo/src/equations/perfect_gas/MusclHancockPrimMethod.hpp:63-78 (the same lambda
with mask: 194-209) -/
noncomputable def primLimiter (eps qL qM qR : ℝ) : ℝ :=
  let delta := 1 / 2 * (qR - qL)
  let deltaIf := if eps < |delta| then delta else 1
  let rL := if eps < |delta| then (qM - qL) / deltaIf else 0
  let rR := if eps < |delta| then (qR - qM) / deltaIf else 0
  let r := if 0 < rL ∧ 0 < rR then min rL rR else 0
  let sigma := if r < 1 then 2 * r / (1 + r) else 1 / 2 * (r + 1)
  sigma * delta

/-- The limited slopes of density, velocities and pressure. /repo/src/equations/perfect_gas/MusclHancockPrimMethod.hpp:106-118 -/
noncomputable def primSlopes (eps : ℝ) (l m r : GasPrim d) : GasPrim d :=
  ⟨primLimiter eps l.density m.density r.density, fun i => primLimiter eps (l.velocity i) (m.velocity i) (r.velocity i), primLimiter eps l.pressure m.pressure r.pressure⟩

/-- The state at the right face of a cell after half a time step. /repo/src/equations/perfect_gas/MusclHancockPrimMethod.hpp:120-131 -/
noncomputable def primRecLeft (w dw : GasPrim d) (a lambda : ℝ) (dir : Fin d) : GasPrim d :=
  { density := w.density + 1 / 2 * (dw.density - lambda * (w.velocity dir * dw.density + w.density * dw.velocity dir))
    velocity := fun i =>
      let u := w.velocity i + 1 / 2 * (dw.velocity i - lambda * (w.velocity dir * dw.velocity i))
      if i = dir then u - 1 / 2 * lambda * dw.pressure / w.density else u
    pressure := w.pressure + 1 / 2 * (dw.pressure - lambda * (w.density * a * a * dw.velocity dir + w.velocity dir * dw.pressure)) }

/-- The state at the left face of a cell after half a time step. /repo/src/equations/perfect_gas/MusclHancockPrimMethod.hpp:133-144 -/
noncomputable def primRecRight (w dw : GasPrim d) (a lambda : ℝ) (dir : Fin d) : GasPrim d :=
  { density := w.density - 1 / 2 * (dw.density + lambda * (w.velocity dir * dw.density + w.density * dw.velocity dir))
    velocity := fun i =>
      let u := w.velocity i - 1 / 2 * (dw.velocity i + lambda * (w.velocity dir * dw.velocity i))
      if i = dir then u - 1 / 2 * lambda * dw.pressure / w.density else u
    pressure := w.pressure - 1 / 2 * (dw.pressure + lambda * (w.density * a * a * dw.velocity dir + w.velocity dir * dw.pressure)) }

/-- The complete state of a reconstructed state. /repo/src/equations/perfect_gas/MusclHancockPrimMethod.hpp:151-159, 164-171 -/
noncomputable def primRecComplete (eq : GasEq) (w : GasPrim d) : GasComplete d :=
  ⟨w.density, fun i => w.density * w.velocity i, 1 / 2 * w.density * (∑ i, w.velocity i * w.velocity i) + w.pressure * eq.gammaMinus1InvArray, w.pressure,
    Real.sqrt (eq.gammaArray * w.pressure / w.density)⟩

/-- The two reconstructed states of a stencil of four cells. /repo/src/equations/perfect_gas/MusclHancockPrimMethod.hpp:79-144 -/
noncomputable def primRecPair (eps lambda : ℝ) (dir : Fin d) (q0 q1 q2 q3 : GasComplete d) : GasPrim d × GasPrim d :=
  (primRecLeft (gasPrim q1) (primSlopes eps (gasPrim q0) (gasPrim q1) (gasPrim q2)) q1.speedOfSound lambda dir,
    primRecRight (gasPrim q2) (primSlopes eps (gasPrim q1) (gasPrim q2) (gasPrim q3)) q2.speedOfSound lambda dir)

/-- `MusclHancockPrim::ComputeNumericFlux`; `lambda` is the time step divided by the cell width, `none` if one of the assertions on density and pressure fails. The
HLLEM method has its default arguments. /repo/src/equations/perfect_gas/MusclHancockPrimMethod.hpp:59-182 -/
noncomputable def musclPrimFlux (eq : GasEq) (eps lambda : ℝ) (dir : Fin d) (q0 q1 q2 q3 : GasComplete d) : Option (GasCons d) :=
  let w := primRecPair eps lambda dir q0 q1 q2 q3
  if (0 < w.1.density ∧ 0 < w.1.pressure) ∧ (0 < w.2.density ∧ 0 < w.2.pressure) then
    some (hllemFluxArray eq true dir (primRecComplete eq w.1) (primRecComplete eq w.2)).1
  else none

/-- The cells that are used at an open face: an outer cell without fluid is replaced by its inner neighbour (density, momentum and pressure).
/repo/src/equations/perfect_gas/MusclHancockPrimMethod.hpp:211-248 -/
noncomputable def musclPrimOuter (vol : ℝ) (outer inner : GasComplete d) : GasComplete d :=
  if 0 < vol then outer else { outer with density := inner.density, momentum := inner.momentum, pressure := inner.pressure }

/-- `MusclHancockPrim::ComputeNumericFlux` with face fractions, one lane of an array in which some face is open (otherwise nothing is written). At a closed face the
reconstruction is computed with density and pressure one and the result is dropped by the HLLEM method.
/repo/src/equations/perfect_gas/MusclHancockPrimMethod.hpp:184-332 -/
noncomputable def musclPrimFluxMasked (eq : GasEq) (eps lambda : ℝ) (dir : Fin d) (face : ℝ) (vol0 vol3 : ℝ) (q0 q1 q2 q3 : GasComplete d) : Option (GasCons d) :=
  if 0 < face then musclPrimFlux eq eps lambda dir (musclPrimOuter vol0 q0 q1) q1 q2 (musclPrimOuter vol3 q3 q2)
  else some ⟨0, fun _ => 0, 0⟩

/-! ### MusclHancockCharacteristic -/

/-- `Primitives`: always three velocities. /repo/include/fub/equations/perfect_gas/MusclHancockCharactersticMethod.hpp:53-74 (arrays: 76-101) -/
@[ext] structure Prim3 where
  /-- density -/
  density : ℝ
  /-- velocities -/
  velocity : Fin 3 → ℝ
  /-- pressure -/
  pressure : ℝ

/-- The constructors from complete states: velocities of directions that do not exist are zero.
/repo/include/fub/equations/perfect_gas/MusclHancockCharactersticMethod.hpp:58-73, 81-100 -/
noncomputable def toPrim3 (q : GasComplete d) : Prim3 :=
  ⟨q.density, fun i => if h : i.1 < d then q.momentum ⟨i.1, h⟩ / q.density else 0, q.pressure⟩

/-- `Characteristics`. /repo/include/fub/equations/perfect_gas/MusclHancockCharactersticMethod.hpp:34-51 -/
@[ext] structure Chars3 where
  /-- left running sound wave -/
  minus : ℝ
  /-- entropy wave -/
  zero : ℝ
  /-- right running sound wave -/
  plus : ℝ
  /-- first shear wave -/
  v : ℝ
  /-- second shear wave -/
  w : ℝ

/-- `ComputeAmplitudes`; the indices are those of `MakeIndices`: direction, next direction and the one after it modulo 3.
/repo/src/equations/perfect_gas/MusclHancockCharacteristicMethod.hpp:29-65 -/
noncomputable def ampl3 (left right : Prim3) (rhoc ooc2 : ℝ) (ix : Fin 3) : Chars3 :=
  let dp := right.pressure - left.pressure
  let du := right.velocity ix - left.velocity ix
  let drho := right.density - left.density
  ⟨dp - rhoc * du, drho - ooc2 * dp, dp + rhoc * du, right.velocity (ix + 1) - left.velocity (ix + 1), right.velocity (ix + 2) - left.velocity (ix + 2)⟩

/-- `Recombine`. /repo/src/equations/perfect_gas/MusclHancockCharacteristicMethod.hpp:67-85 -/
noncomputable def recombine3 (q : Chars3) (rhoc ooc2 : ℝ) (ix : Fin 3) : Prim3 :=
  let pressure := 1 / 2 * (q.minus + q.plus)
  { density := ooc2 * pressure + q.zero
    velocity := fun i => if i = ix then 1 / 2 * (q.plus - q.minus) / rhoc else if i = ix + 1 then q.v else q.w
    pressure := pressure }

/-- `ComputeSlopes`. /repo/src/equations/perfect_gas/MusclHancockCharacteristicMethod.hpp:87-128 -/
noncomputable def slopes3 (limiter : ℝ → ℝ → ℝ) (pL pM pR : Prim3) (rhoc ooc2 : ℝ) (ix : Fin 3) : Chars3 :=
  let l := ampl3 pL pM rhoc ooc2 ix
  let r := ampl3 pM pR rhoc ooc2 ix
  ⟨limiter l.minus r.minus, limiter l.zero r.zero, limiter l.plus r.plus, limiter l.v r.v, limiter l.w r.w⟩

/-- `ComputeSlopes` with volume fractions; only the left amplitudes are set to zero. /repo/src/equations/perfect_gas/MusclHancockCharacteristicMethod.hpp:130-156 -/
noncomputable def slopes3Masked (limiter : ℝ → ℝ → ℝ) (pL pM pR : Prim3) (rhoc ooc2 : ℝ) (volL volM volR : ℝ) (ix : Fin 3) : Chars3 :=
  let l := ampl3 pL pM rhoc ooc2 ix
  let r := ampl3 pM pR rhoc ooc2 ix
  let sel := fun x : ℝ => if 0 < volL ∧ 0 < volM ∧ 0 < volR then x else 0
  ⟨limiter (sel l.minus) r.minus, limiter (sel l.zero) r.zero, limiter (sel l.plus) r.plus, limiter (sel l.v) r.v, limiter (sel l.w) r.w⟩

/-- `DoTimeStep`; `sign` is 1 for the left state of a face and -1 for the right state.
/repo/src/equations/perfect_gas/MusclHancockCharacteristicMethod.hpp:158-180 -/
noncomputable def charStep3 (slope : Chars3) (rightSide : Bool) (lambda u c : ℝ) : Chars3 :=
  let sign : ℝ := if rightSide then -1 else 1
  { minus := sign * (1 / 2) * slope.minus * (1 - sign * lambda * (u - c))
    zero := sign * (1 / 2) * slope.zero * (1 - sign * lambda * u)
    plus := sign * (1 / 2) * slope.plus * (1 - sign * lambda * (u + c))
    v := sign * (1 / 2) * slope.v * (1 - sign * lambda * u)
    w := sign * (1 / 2) * slope.w * (1 - sign * lambda * u) }

/-- The primitive variables of `Reconstruct` from given slopes; velocities of directions that do not exist are dropped in `CompleteFromPrim`.
/repo/src/equations/perfect_gas/MusclHancockCharacteristicMethod.hpp:218-232 (arrays: 241-255, masked: 264-280) -/
noncomputable def charRec3 (slope : Chars3) (q : GasComplete d) (rightSide : Bool) (lambda : ℝ) (dir : Fin d) (ix : Fin 3) : GasPrim d :=
  let rho := q.density
  let u := q.momentum dir / rho
  let c := q.speedOfSound
  let diffs := recombine3 (charStep3 slope rightSide lambda u c) (rho * c) (1 / (c * c)) ix
  { density := diffs.density + rho
    velocity := fun i => if h : i.1 < 3 then diffs.velocity ⟨i.1, h⟩ + q.momentum i / q.density else 0
    pressure := diffs.pressure + q.pressure }

/-- `Reconstruct`, the slopes are those of the three states. /repo/src/equations/perfect_gas/MusclHancockCharacteristicMethod.hpp:212-256 -/
noncomputable def charReconstruct3 (limiter : ℝ → ℝ → ℝ) (qL qM qR : GasComplete d) (rightSide : Bool) (lambda : ℝ) (dir : Fin d) (ix : Fin 3) : GasPrim d :=
  charRec3 (slopes3 limiter (toPrim3 qL) (toPrim3 qM) (toPrim3 qR) (qM.density * qM.speedOfSound) (1 / (qM.speedOfSound * qM.speedOfSound)) ix) qM rightSide lambda dir ix

/-- `MusclHancockCharacteristic::ComputeNumericFlux`, array version; `ix` is the direction as index of three velocities.
/repo/src/equations/perfect_gas/MusclHancockCharacteristicMethod.hpp:303-317 -/
noncomputable def musclCharFlux (eq : GasEq) (limiter : ℝ → ℝ → ℝ) (lambda : ℝ) (dir : Fin d) (ix : Fin 3) (q0 q1 q2 q3 : GasComplete d) : GasCons d :=
  (hllemFluxArray eq true dir (gasFromPrimArray eq (charReconstruct3 limiter q0 q1 q2 false lambda dir ix))
    (gasFromPrimArray eq (charReconstruct3 limiter q1 q2 q3 true lambda dir ix))).1

/-! ### ThirdOrderRungeKutta -/

/-- `CellToEdge_`. /repo/src/equations/perfect_gas/ThirdOrderRungeKuttaMethod.hpp:28-43 -/
noncomputable def cellToEdge (ll l r rr : ℝ) : ℝ := 9114378277661477 / 10000000000000000 * (l + r) - 4114378277661477 / 10000000000000000 * (ll + rr)

/-- `CellToEdge` of four states. /repo/src/equations/perfect_gas/ThirdOrderRungeKuttaMethod.hpp:46-80 -/
noncomputable def gasToEdge (q0 q1 q2 q3 : GasCons d) : GasCons d :=
  ⟨cellToEdge q0.density q1.density q2.density q3.density, fun i => cellToEdge (q0.momentum i) (q1.momentum i) (q2.momentum i) (q3.momentum i),
    cellToEdge q0.energy q1.energy q2.energy q3.energy⟩

/-- `ComputeDiffusion`. /repo/src/equations/perfect_gas/ThirdOrderRungeKuttaMethod.hpp:100-152 -/
noncomputable def rkDiffusion (eq : GasEq) (qL qR qEdge : GasComplete 1) (dx eta0 k0 : ℝ) : GasCons 1 :=
  let u := gasVelocity qEdge 0
  let sqrtT := Real.sqrt (gasTemperature eq qEdge)
  let eta := eta0 * sqrtT
  let k := k0 * sqrtT
  let du := (gasVelocity qR 0 - gasVelocity qL 0) / dx
  let dT := (gasTemperature eq qR - gasTemperature eq qL) / dx
  ⟨0, fun _ => 4 / 3 * eta * du, 4 / 3 * eta * u * du + k * dT⟩

/-- The flux of one face of a stage: Euler flux of the interpolated state minus diffusion.
/repo/src/equations/perfect_gas/ThirdOrderRungeKuttaMethod.hpp:257-264 (also 280-287, 304-311; scalar version 172-179, 195-202, 219-226) -/
noncomputable def rkFaceFlux (eq : GasEq) (dx eta0 k0 : ℝ) (q0 q1 q2 q3 : GasComplete 1) : GasCons 1 :=
  let qEdge := gasCompleteArray eq (gasToEdge q0.cons q1.cons q2.cons q3.cons)
  let f := gasFluxArray qEdge 0
  let D := rkDiffusion eq q1 q2 qEdge dx eta0 k0
  ⟨f.density - D.density, fun i => f.momentum i - D.momentum i, f.energy - D.energy⟩

/-- `a * x + b * y + c * (f - g)` for conservative states, the update of a stage. Serves the model of /repo/src/equations/perfect_gas/ThirdOrderRungeKuttaMethod.hpp:248-322. -/
def rkCombine (a b c : ℝ) (x y f g : GasCons d) : GasCons d :=
  ⟨a * x.density + b * y.density + c * (f.density - g.density), fun i => a * x.momentum i + b * y.momentum i + c * (f.momentum i - g.momentum i),
    a * x.energy + b * y.energy + c * (f.energy - g.energy)⟩

/-- `ThirdOrderRungeKutta::ComputeNumericFlux`, array version, one lane. `u 0, ..., u 11` are the cells of the stencil. Entries of local arrays outside of the computed
ranges (2 to 9 for the first stage, 4 to 7 for the second one) are `junk`. /repo/src/equations/perfect_gas/ThirdOrderRungeKuttaMethod.hpp:248-322 (scalar: 156-237) -/
noncomputable def rk3Flux (eq : GasEq) (lambda dx eta0 k0 : ℝ) (junk : GasComplete 1) (junkFlux : GasCons 1) (u : ℕ → GasComplete 1) : GasCons 1 :=
  let face := rkFaceFlux eq dx eta0 k0
  let f0 : ℕ → GasCons 1 := fun i => if 2 ≤ i ∧ i < 11 then face (u (i - 2)) (u (i - 1)) (u i) (u (i + 1)) else junkFlux
  let u1 : ℕ → GasComplete 1 := fun i => if 2 ≤ i ∧ i < 10 then gasCompleteArray eq (rkCombine 1 0 lambda (u i).cons (u i).cons (f0 i) (f0 (i + 1))) else junk
  let f1 : ℕ → GasCons 1 := fun i => if 4 ≤ i ∧ i < 9 then face (u1 (i - 2)) (u1 (i - 1)) (u1 i) (u1 (i + 1)) else junkFlux
  let u2 : ℕ → GasComplete 1 := fun i =>
    if 4 ≤ i ∧ i < 8 then gasCompleteArray eq (rkCombine (3 / 4) (1 / 4) (1 / 4 * lambda) (u i).cons (u1 i).cons (f1 i) (f1 (i + 1))) else junk
  let f2 : ℕ → GasCons 1 := fun i => if 6 ≤ i ∧ i < 7 then face (u2 (i - 2)) (u2 (i - 1)) (u2 i) (u2 (i + 1)) else junkFlux
  ⟨1 / 6 * (f0 6).density + 1 / 6 * (f1 6).density + 2 / 3 * (f2 6).density,
    fun k => 1 / 6 * (f0 6).momentum k + 1 / 6 * (f1 6).momentum k + 2 / 3 * (f2 6).momentum k,
    1 / 6 * (f0 6).energy + 1 / 6 * (f1 6).energy + 2 / 3 * (f2 6).energy⟩

/-- `ComputeStableDt`. /repo/src/equations/perfect_gas/ThirdOrderRungeKuttaMethod.hpp:324-333, 342-352 -/
noncomputable def rk3StableDt (dx : ℝ) (u : ℕ → GasComplete 1) : ℝ :=
  dx / max (|(u 5).momentum 0 / (u 5).density| + (u 5).speedOfSound) (|(u 6).momentum 0 / (u 6).density| + (u 6).speedOfSound)

end Fub
