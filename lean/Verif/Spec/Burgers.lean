import Mathlib.Algebra.Order.Field.Basic
import Mathlib.Algebra.BigOperators.Group.Finset.Basic
import Mathlib.Order.Bounds.Basic
import Mathlib.Order.Interval.Set.Basic

/-! Specification notions for scalar conservation laws (C31, C32). -/

namespace Fub
variable {K : Type} [Field K] [LinearOrder K]

/-- The Godunov flux of a flux function `f` between the states `l` and `r` (Osher's formula): the minimum of `f` over
`[l, r]` if `l ≤ r`, the maximum over `[r, l]` otherwise. -/
def IsGodunovFlux (f : K → K) (l r F : K) : Prop :=
  (l ≤ r → IsLeast (f '' Set.Icc l r) F) ∧ (r ≤ l → IsGreatest (f '' Set.Icc r l) F)

/-- Data on a periodic line with `N` cells. -/
def Periodic (N : Nat) (u : Int → K) : Prop := ∀ i, u (i + N) = u i

/-- Total variation over one period. -/
def totalVariation (N : Nat) (u : Int → K) : K := ∑ i ∈ Finset.range N, |u ((i : Int) + 1) - u i|

end Fub
