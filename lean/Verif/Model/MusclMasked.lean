import Verif.Model.Flux
import Verif.Model.Gas

/-!
# The MUSCL-Hancock flux of a vector of faces next to cut cells

Model of the overload of `MusclHancock::ComputeNumericFlux` that takes face and volume fractions, in
`/repo/include/fub/flux_method/MusclHancockMethod.hpp`. A vector has `n` lanes, one face per lane. Simplification: exact arithmetic;
a `select` returns the selected branch whatever the other branch holds, so numbers of covered cells may stand for NaN.
-/

namespace Fub
variable {K C ι : Type} [Field K] [LinearOrder K]

/-- `NoLimiter::ComputeLimitedSlope` with mask, one lane and one component. /repo/include/fub/flux_method/MusclHancockMethod.hpp:56-68 -/
def noLimiterSlopeMasked (mask : Bool) (qL qM qR : K) : K :=
  let sL := if mask then qM - qL else 0
  let sR := if mask then qR - qM else 0
  1 / 2 * (sL + sR)

/-- `NoGradient::ComputeLimitedSlope` with mask, one lane and one component. /repo/include/fub/flux_method/MusclHancockMethod.hpp:84-89 -/
def noGradientSlopeMasked (_mask : Bool) (_qL _qM _qR : K) : K := 0

/-- The overloads of an equation that take a mask, one lane: `CompleteFromCons` and `Flux`.
/repo/include/fub/CompleteFromCons.hpp:91-107, /repo/include/fub/Equation.hpp:152-174 -/
structure MaskOps (K C ι : Type) where
  complete : Bool → (ι → K) → C
  flux : Bool → C → ι → K

/-- The states at the left and the right face of a cell `q` in the lane of a face that is open (`valid`) or not.
/repo/include/fub/flux_method/MusclHancockMethod.hpp:506-516,537-547 -/
def maskedFaces (E : EqnOps K C ι) (M : MaskOps K C ι) (valid : Bool) (q : C) (slope : ι → K) : C × C :=
  let q0 : ι → K := fun i => if valid then E.cons q i else 0
  (M.complete valid fun i => q0 i - 1 / 2 * slope i, M.complete valid fun i => q0 i + 1 / 2 * slope i)

/-- The state left of the face after half a time step. /repo/include/fub/flux_method/MusclHancockMethod.hpp:506-528 -/
def maskedLeft (E : EqnOps K C ι) (M : MaskOps K C ι) (valid : Bool) (lambdaHalf : K) (q : C) (slope : ι → K) : C :=
  let qLR := maskedFaces E M valid q slope
  M.complete valid fun i => E.cons qLR.2 i + lambdaHalf * (M.flux valid qLR.1 i - M.flux valid qLR.2 i)

/-- The state right of the face after half a time step. /repo/include/fub/flux_method/MusclHancockMethod.hpp:537-559 -/
def maskedRight (E : EqnOps K C ι) (M : MaskOps K C ι) (valid : Bool) (lambdaHalf : K) (q : C) (slope : ι → K) : C :=
  let qLR := maskedFaces E M valid q slope
  M.complete valid fun i => E.cons qLR.1 i + lambdaHalf * (M.flux valid qLR.1 i - M.flux valid qLR.2 i)

/-- One lane of a vector with an open face: `base` is the overload of the lower order method that takes the face fraction.
/repo/include/fub/flux_method/MusclHancockMethod.hpp:494-567 -/
def musclLane {R : Type} (E : EqnOps K C ι) (M : MaskOps K C ι) (limiter : Bool → K → K → K → K) (base : K → C → C → R)
    (β : K) (s : Fin 4 → C) (α : Fin 4 → K) (dt dx : K) : R :=
  let valid : Bool := decide (0 < β)
  let lambdaHalf := 1 / 2 * dt / dx
  let leftMask : Bool := decide (0 < α 0) && decide (0 < α 1) && decide (0 < α 2)
  let rightMask : Bool := decide (0 < α 1) && decide (0 < α 2) && decide (0 < α 3)
  let slopeL : ι → K := fun i => limiter leftMask (E.cons (s 0) i) (E.cons (s 1) i) (E.cons (s 2) i)
  let slopeR : ι → K := fun i => limiter rightMask (E.cons (s 1) i) (E.cons (s 2) i) (E.cons (s 3) i)
  base β (maskedLeft E M valid lambdaHalf (s 1) slopeL) (maskedRight E M valid lambdaHalf (s 2) slopeR)

/-- `MusclHancock::ComputeNumericFlux` with face and volume fractions, on a vector of `n` lanes.
/repo/include/fub/flux_method/MusclHancockMethod.hpp:487-571 -/
def musclVector {n : ℕ} {R : Type} [Zero R] (E : EqnOps K C ι) (M : MaskOps K C ι) (limiter : Bool → K → K → K → K) (base : K → C → C → R)
    (β : Fin n → K) (s : Fin n → Fin 4 → C) (α : Fin n → Fin 4 → K) (dt dx : K) : Fin n → R :=
  if (List.ofFn fun l : Fin n => decide (0 < β l)).any id then
    fun l => musclLane E M limiter base (β l) (s l) (α l) dt dx
  else fun _ => 0

/-- The masked overloads of the perfect gas. /repo/src/equations/PerfectGas.cpp:79-93,126-144 -/
noncomputable def gasMaskOps {d : ℕ} (eq : GasEq) (dir : Fin d) : MaskOps ℝ (GasComplete d) (GasVar d) where
  complete m f := gasCompleteMasked eq (.ofFn f) m
  flux m q := (gasFluxMasked q m dir).get

/-- The HLL flux with face fractions of the perfect gas, one lane: `none` if a NaN appears in the signal speeds (it then appears in every component of the
flux) or if the assertion fails. /repo/include/fub/flux_method/HllMethod.hpp:295-336 -/
noncomputable def gasHllLane {d : ℕ} (eq : GasEq) (dir : Fin d) (β : ℝ) (l r : GasComplete d) : Option (GasVar d → ℝ) :=
  match einfeldtMasked eq.gammaArray (decide (0 < β)) dir l r with
  | none => none
  | some s => hllFluxMasked (gasEqn eq dir) (fun _ _ _ => s) (fun m c => (gasFluxMasked c m dir).get) β l r

/-- A flux of zero where no NaN appeared. Serves the model of /repo/include/fub/flux_method/MusclHancockMethod.hpp:568-570. -/
instance gasLaneZero {d : ℕ} : Zero (Option (GasVar d → ℝ)) := ⟨some fun _ => 0⟩

end Fub
