import Mathlib.Algebra.Order.Field.Basic

/-!
Slope limiters: the ones of the MUSCL-Hancock method (`MusclHancockMethod.hpp`) and the ones of the
gradient classes (`Gradient.hpp`).

Simplification everywhere: exact arithmetic in an ordered field instead of `double`; an `Array1d`
operation is lane-wise, so it is modelled by its action on one lane, a `MaskArray` by one `Bool`.
Eigen's `select` evaluates both branches; the branch that is not taken may contain a division by
zero, which has no effect on the selected result.
-/

namespace Fub
variable {K : Type} [Field K] [LinearOrder K]

/-- `NoLimiter::ComputeLimitedSlope` on one component. /repo/include/fub/flux_method/MusclHancockMethod.hpp:31-54 -/
def noLimiterSlope (qL qM qR : K) : K :=
  let sL := qM - qL
  let sR := qR - qM
  1 / 2 * (sL + sR)

/-- `NoGradient::ComputeLimitedSlope` on one component. /repo/include/fub/flux_method/MusclHancockMethod.hpp:71-89 -/
def noGradientSlope (_qL _qM _qR : K) : K := 0

/-- `MinMod::ComputeLimitedSlope`, scalar version, on one component. /repo/include/fub/flux_method/MusclHancockMethod.hpp:92-107 -/
def minModSlope (qL qM qR : K) : K :=
  let sL := qM - qL
  let sR := qR - qM
  if 0 < sR then max 0 (min sL sR) else min 0 (max sL sR)

/-- `MinMod::ComputeLimitedSlope`, array version, one lane: `(sR > 0).select(zero.max(sL.min(sR)),
zero.min(sL.max(sR)))`. /repo/include/fub/flux_method/MusclHancockMethod.hpp:109-120 -/
def minModSlopeArray (qL qM qR : K) : K :=
  let sL := qM - qL
  let sR := qR - qM
  if 0 < sR then max 0 (min sL sR) else min 0 (max sL sR)

/-- The masked array version, one lane. /repo/include/fub/flux_method/MusclHancockMethod.hpp:122-134 -/
def minModSlopeMasked (mask : Bool) (qL qM qR : K) : K :=
  let sL := if mask then qM - qL else 0
  let sR := if mask then qR - qM else 0
  if 0 < sR then max 0 (min sL sR) else min 0 (max sL sR)

/-- `VanLeer::operator()`, scalar version. /repo/include/fub/flux_method/MusclHancockMethod.hpp:138-142 -/
def vanLeer (sL sR : K) : K :=
  let c := 2 * sL * sR
  if 0 < c then c / (sL + sR) else 0

/-- `VanLeer::operator()`, array version, one lane. /repo/include/fub/flux_method/MusclHancockMethod.hpp:144-149 -/
def vanLeerArray (sL sR : K) : K :=
  let r := 2 * sL * sR
  if 0 < r then r / (sL + sR) else 0

/-- `VanLeer::ComputeLimitedSlope`. /repo/include/fub/flux_method/MusclHancockMethod.hpp:151-161 -/
def vanLeerSlope (qL qM qR : K) : K := vanLeer (qM - qL) (qR - qM)

/-- `VanLeer::ComputeLimitedSlope`, array versions with and without mask, one lane.
/repo/include/fub/flux_method/MusclHancockMethod.hpp:163-186 -/
def vanLeerSlopeMasked (mask : Bool) (qL qM qR : K) : K :=
  vanLeerArray (if mask then qM - qL else 0) (if mask then qR - qM else 0)

/-! ### Gradient.hpp -/

/-- `NoLimiter2::operator()`. /repo/include/fub/flux_method/Gradient.hpp:31-34 -/
def noLimiter2 (_R : K) : K := 1

/-- `UpwindLimiter::operator()`. /repo/include/fub/flux_method/Gradient.hpp:36-39 -/
def upwindLimiter (_R : K) : K := 0

/-- `MinModLimiter::operator()`. /repo/include/fub/flux_method/Gradient.hpp:41-50 -/
def minModLimiter (R : K) : K :=
  let t := 2 / (1 + R)
  min t (R * t)

/-- `VanLeerLimiter::operator()`. /repo/include/fub/flux_method/Gradient.hpp:52-59 -/
def vanLeerLimiter (R : K) : K := 4 * R / ((1 + R) * (1 + R))

/-- `CentralDifferenceGradient::ComputeGradient`, scalar version. /repo/include/fub/flux_method/Gradient.hpp:219-227 -/
def centralGradient (limiter : K → K) (sL sR : K) : K :=
  if sL * sR ≤ 0 then 0
  else
    let R := sR / sL
    1 / 2 * limiter R * (sL + sR)

/-- `CentralDifferenceGradient::ComputeGradient`, array version, one lane. /repo/include/fub/flux_method/Gradient.hpp:211-217 -/
def centralGradientArray (limiter : K → K) (sL sR : K) : K :=
  let R := sR / sL
  if 0 < sL * sR then 1 / 2 * limiter R * (sL + sR) else 0

/-- `ConservativeGradient::ComputeGradient` on one component: one-sided difference quotients, then the
limited gradient. /repo/include/fub/flux_method/Gradient.hpp:239-249 -/
def conservativeGradient (limiter : K → K) (qL qM qR dx : K) : K :=
  centralGradient limiter ((qM - qL) / dx) ((qR - qM) / dx)

end Fub
