import Verif.Model.Limiter

/-!
# Specification: slopes next to cut cells
-/

namespace Fub
variable {K : Type} [Field K] [LinearOrder K]

/-- `limM` is a version of the limiter `lim` for vectors: on a lane that is switched on it is `lim`, on a lane that is switched off the slope is zero. -/
structure IsMaskedLimiter (limM : Bool → K → K → K → K) (lim : K → K → K → K) : Prop where
  on : ∀ a b c, limM true a b c = lim a b c
  off : ∀ a b c, limM false a b c = 0

/-- The slope in the middle one of three cells with volume fractions `vL`, `vM` and `vR`: limited if none of the cells is covered, zero otherwise. -/
def openSlope (lim : K → K → K → K) (vL vM vR a b c : K) : K := if 0 < vL ∧ 0 < vM ∧ 0 < vR then lim a b c else 0

end Fub
