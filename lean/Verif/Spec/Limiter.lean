import Mathlib.Algebra.Order.Field.Basic

/-! What a slope limiter has to do, without reference to any implementation (C28). -/

namespace Fub
variable {K : Type} [Field K] [LinearOrder K]

/-- `σ` is a slope between zero and `β` times the smaller of the two one-sided differences `a`, `b`, with
their common sign, and zero if they do not have a common sign. `β = 1` is the minmod region, `β = 2` the
largest region in which the reconstruction stays monotone. -/
def LimitedSlope (β a b σ : K) : Prop :=
  (0 < a → 0 < b → 0 ≤ σ ∧ σ ≤ β * a ∧ σ ≤ β * b) ∧
  (a < 0 → b < 0 → σ ≤ 0 ∧ β * a ≤ σ ∧ β * b ≤ σ) ∧
  (a * b ≤ 0 → σ = 0)

end Fub
