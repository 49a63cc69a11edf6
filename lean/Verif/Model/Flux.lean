import Verif.Model.Limiter

/-!
Numerical fluxes: Godunov, HLL and MUSCL-Hancock.

A state of an equation is a `Complete` state `c : C`; its conservative part is `E.cons c : ι → K` with one
entry per component (`ForEachComponent` runs over the components, /repo/include/fub/State.hpp:633-645).
The direction is fixed once, so it is no argument here. Simplification: exact arithmetic; one lane per array.
-/

namespace Fub
variable {K C ι : Type}

/-- What a flux method needs from an equation: the conservative part of a complete state (`AsCons`), writing
the conservative part while leaving the other variables as they are (assignment through `AsCons(q)`),
`CompleteFromCons`, and the physical `Flux`. /repo/include/fub/State.hpp:446-463 (`AsCons`),
/repo/include/fub/CompleteFromCons.hpp:40-71 -/
structure EqnOps (K C ι : Type) where
  cons : C → ι → K
  setCons : C → (ι → K) → C
  complete : (ι → K) → C
  flux : C → ι → K

/-- `Godunov::ComputeNumericFlux` with a given Riemann solver. /repo/include/fub/flux_method/GodunovMethod.hpp:129-136 -/
def godunovFlux (E : EqnOps K C ι) (solve : C → C → C) (left right : C) : ι → K := E.flux (solve left right)

/-- The face-fraction version of `Godunov::ComputeNumericFlux`, one lane: zero on closed faces.
/repo/include/fub/flux_method/GodunovMethod.hpp:147-160 -/
def godunovFluxMasked [Zero K] [LT K] [DecidableLT K] (E : EqnOps K C ι) (solve : C → C → C) (faceFraction : K) (left right : C) : ι → K :=
  fun i => if 0 < faceFraction then E.flux (solve left right) i else 0

variable [Field K] [LinearOrder K]

/-- `std::accumulate(signals, 0.0, max(x, abs(y)))`. /repo/include/fub/flux_method/GodunovMethod.hpp:166-168 -/
def maxSignal (signals : List K) : K := signals.foldl (fun x y => max x |y|) 0

/-- `dx / s_max` with the IEEE value infinity for a vanishing signal. /repo/include/fub/flux_method/GodunovMethod.hpp:162-170,
/repo/include/fub/flux_method/HllMethod.hpp:224-234 -/
def signalDt (signals : List K) (dx : K) : WithTop K :=
  if maxSignal signals = 0 then ⊤ else ((dx / maxSignal signals : K) : WithTop K)

/-! ### HLL -/

/-- `HllBase::SolveRiemannProblem`. /repo/include/fub/flux_method/HllMethod.hpp:161-184 -/
def hllSolve (E : EqnOps K C ι) (signals : C → C → K × K) (left right : C) : C :=
  let sL := (signals left right).1
  let sR := (signals left right).2
  let ds := if sL ≠ sR then sR - sL else 1
  if 0 < sL then left
  else if sR < 0 then right
  else E.complete fun i => (sR * E.cons right i - sL * E.cons left i + E.flux left i - E.flux right i) / ds

/-- `HllBase::ComputeNumericFlux`; `none` is the failed assertion `ds > 0`. /repo/include/fub/flux_method/HllMethod.hpp:191-213 -/
def hllFlux (E : EqnOps K C ι) (signals : C → C → K × K) (left right : C) : Option (ι → K) :=
  let sL := min 0 (signals left right).1
  let sR := max 0 (signals left right).2
  let sLsR := sL * sR
  let ds := sR - sL
  if 0 < ds then
    some fun i => (sR * E.flux left i - sL * E.flux right i + sLsR * (E.cons right i - E.cons left i)) / ds
  else none

/-- The interface pressure returned by `ComputeNumericFlux`. /repo/include/fub/flux_method/HllMethod.hpp:215-221 -/
def hllPressure (signals : C → C → K × K) (pressure : C → K) (left right : C) : K :=
  let sL := min 0 (signals left right).1
  let sR := max 0 (signals left right).2
  (sR * pressure left - sL * pressure right) / (sR - sL)

/-- `HllArrayBase::SolveRiemannProblem`, one lane. Only the conservative part of `solution` is assigned
(the call of `CompleteFromCons` is commented out), the other variables keep the value they had in `old`.
/repo/include/fub/flux_method/HllMethod.hpp:239-258 -/
def hllSolveArray (E : EqnOps K C ι) (signals : C → C → K × K) (old left right : C) : C :=
  let sL := (signals left right).1
  let sR := (signals left right).2
  let ds := if 0 < sR - sL then sR - sL else 1
  E.setCons old fun i =>
    if 0 < sL then E.cons left i
    else if sR < 0 then E.cons right i
    else (sR * E.cons right i - sL * E.cons left i + E.flux left i - E.flux right i) / ds

/-- `HllArrayBase::ComputeNumericFlux`, one lane. /repo/include/fub/flux_method/HllMethod.hpp:260-284 -/
def hllFluxArray (E : EqnOps K C ι) (signals : C → C → K × K) (left right : C) : ι → K :=
  let sL := min (signals left right).1 0
  let sR := max (signals left right).2 0
  let sLsR := sL * sR
  let ds := if 0 < sR - sL then sR - sL else 1
  fun i => (sR * E.flux left i - sL * E.flux right i + sLsR * (E.cons right i - E.cons left i)) / ds

/-- The face-fraction version, one lane; `none` is the failed assertion. `signals mask` and `flux mask` are the overloads of the signal and
flux functions that take the mask; the masked `Flux` of the perfect gas is not zero on masked-out lanes.
/repo/include/fub/flux_method/HllMethod.hpp:295-336 -/
def hllFluxMasked (E : EqnOps K C ι) (signals : Bool → C → C → K × K) (flux : Bool → C → ι → K) (faceFraction : K) (left right : C) :
    Option (ι → K) :=
  let mask : Bool := decide (0 < faceFraction)
  let s := signals mask left right
  let sL := min s.1 0
  let sR := max s.2 0
  let sLsR := sL * sR
  let ds := if mask then sR - sL else 1
  if 0 < ds then
    some fun i =>
      let qL := if mask then E.cons left i else 0
      let qR := if mask then E.cons right i else 0
      (sR * flux mask left i - sL * flux mask right i + sLsR * (qR - qL)) / ds
  else none

/-! ### MUSCL-Hancock -/

/-- The half-step values of a cell with conservative values `q` and slopes `slope`: the reconstructed complete
states at its left and right face. /repo/include/fub/flux_method/MusclHancockMethod.hpp:305-313 -/
def musclFaces (E : EqnOps K C ι) (q : C) (slope : ι → K) : C × C :=
  (E.complete fun i => E.cons q i - 1 / 2 * slope i, E.complete fun i => E.cons q i + 1 / 2 * slope i)

/-- State left of the face: right face value of the left cell advanced by half a step.
/repo/include/fub/flux_method/MusclHancockMethod.hpp:315-324 -/
def musclLeft (E : EqnOps K C ι) (lambdaHalf : K) (q : C) (slope : ι → K) : C :=
  let qLR := musclFaces E q slope
  E.complete fun i => E.cons qLR.2 i + lambdaHalf * (E.flux qLR.1 i - E.flux qLR.2 i)

/-- State right of the face: left face value of the right cell advanced by half a step.
/repo/include/fub/flux_method/MusclHancockMethod.hpp:341-350 -/
def musclRight (E : EqnOps K C ι) (lambdaHalf : K) (q : C) (slope : ι → K) : C :=
  let qLR := musclFaces E q slope
  E.complete fun i => E.cons qLR.1 i + lambdaHalf * (E.flux qLR.1 i - E.flux qLR.2 i)

/-- `MusclHancock::ComputeNumericFlux` on a four-cell stencil. `base` is the lower order flux method, `limiter` the
slope limiter on one component. /repo/include/fub/flux_method/MusclHancockMethod.hpp:294-356 (array version 419-485) -/
def musclFlux {R : Type} (E : EqnOps K C ι) (base : C → C → R) (limiter : K → K → K → K) (s0 s1 s2 s3 : C) (dt dx : K) : R :=
  let lambdaHalf := 1 / 2 * dt / dx
  let slopeL : ι → K := fun i => limiter (E.cons s0 i) (E.cons s1 i) (E.cons s2 i)
  let slopeR : ι → K := fun i => limiter (E.cons s1 i) (E.cons s2 i) (E.cons s3 i)
  base (musclLeft E lambdaHalf s1 slopeL) (musclRight E lambdaHalf s2 slopeR)

/-- `MusclHancock::ComputeNumericFlux` with given gradients. /repo/include/fub/flux_method/MusclHancockMethod.hpp:358-417 -/
def musclFluxGrad {R : Type} (E : EqnOps K C ι) (base : C → C → R) (s0 s1 : C) (g0 g1 : ι → K) (dt dx : K) : R :=
  let lambdaHalf := 1 / 2 * dt / dx
  base (musclLeft E lambdaHalf s0 fun i => g0 i * dx) (musclRight E lambdaHalf s1 fun i => g1 i * dx)

/-! ### MUSCL-Hancock with exchangeable gradient and reconstruction (`MusclHancock2`) -/

/-- `ConservativeReconstruction::Reconstruct`; `upper` is `side == Side::Upper`.
/repo/include/fub/flux_method/Reconstruct.hpp:165-190 (array version 192-218) -/
def consReconstruct (E : EqnOps K C ι) (q0 : C) (dqdx : ι → K) (dt dx : K) (upper : Bool) : C :=
  let qL := E.complete fun i => E.cons q0 i - 1 / 2 * dx * dqdx i
  let qR := E.complete fun i => E.cons q0 i + 1 / 2 * dx * dqdx i
  let lambdaHalf := 1 / 2 * dt / dx
  let q := if upper then qR else qL
  E.complete fun i => E.cons q i + lambdaHalf * (E.flux qL i - E.flux qR i)

/-- `MusclHancock2::ComputeNumericFlux` with `ConservativeGradient<CentralDifferenceGradient<Limiter>>` and
`ConservativeReconstruction`. /repo/include/fub/flux_method/MusclHancockMethod2.hpp:134-158 -/
def muscl2Flux {R : Type} (E : EqnOps K C ι) (base : C → C → R) (limiter : K → K) (s0 s1 s2 s3 : C) (dt dx : K) : R :=
  let g0 : ι → K := fun i => conservativeGradient limiter (E.cons s0 i) (E.cons s1 i) (E.cons s2 i) dx
  let g1 : ι → K := fun i => conservativeGradient limiter (E.cons s1 i) (E.cons s2 i) (E.cons s3 i) dx
  base (consReconstruct E s1 g0 dt dx true) (consReconstruct E s2 g1 dt dx false)

end Fub
