import Mathlib.Algebra.Order.Field.Basic
import Mathlib.Algebra.Order.AbsoluteValue.Basic

/-!
# Models of small utilities: clamp, ipow, FUB_ASSERT and the Newton iteration

Sources: `/repo/include/fub/core/{algorithm,assert}.hpp`, `/repo/include/fub/NewtonIteration.hpp`.
-/

namespace Fub

/-- `fub::clamp(v, lo, hi)`, /repo/include/fub/core/algorithm.hpp:29-37; `none` is the failed `assert(!(hi < lo))`. -/
def clamp {T : Type} [LinearOrder T] (v lo hi : T) : Option T :=
  if hi < lo then none else if v < lo then some lo else if hi < v then some hi else some v

/-- The `while` loop of `ipow`, /repo/include/fub/core/algorithm.hpp:41-44; `exponent > 0` is the number of passes left. -/
def ipowLoop (base : Int) : Nat → Int → Int
  | 0, prod => prod
  | e + 1, prod => ipowLoop base e (prod * base)

/-- `fub::ipow(base, exponent)`, /repo/include/fub/core/algorithm.hpp:39-46 (also /repo/include/fub/AMReX/cutcell/IndexSpace.hpp:38-45).
A negative exponent leaves the loop at once. -/
def ipow (base exponent : Int) : Int := ipowLoop base exponent.toNat 1

/-- What happens at an assertion. Serves the model of /repo/include/fub/core/assert.hpp:26-43. -/
inductive AssertOutcome where
  | pass
  | throws
  | aborts
deriving DecidableEq, Repr

/-- Configurations of the assertion macro: `FUB_NO_ASSERTIONS`, `FUB_THROW_ON_ASSERTION_FAILURE`, neither. Serves the model of /repo/include/fub/core/assert.hpp:26-43. -/
inductive AssertMode where
  | off
  | throwing
  | plain
deriving DecidableEq, Repr

/-- `FUB_ASSERT(x)`, /repo/include/fub/core/assert.hpp:26-43. In throwing mode the macro is `if ((x)) throw`. -/
def fubAssert (mode : AssertMode) (x : Bool) : AssertOutcome :=
  match mode with
  | .off => .pass
  | .throwing => if x then .throws else .pass
  | .plain => if x then .pass else .aborts

section
variable {K : Type} [Field K] [LinearOrder K]

/-- One pass of the Newton loop, /repo/include/fub/NewtonIteration.hpp:36-39. A zero derivative makes `next` infinite or NaN, which the
test `(next - next) != (next - next)` detects. Values of `f` and `Df` are finite numbers. -/
def newtonStep (f Df : K → K) (x : K) : K :=
  if Df x = 0 then 1 / 2 * x
  else
    let next := x - f x / Df x
    if next < 0 then 1 / 2 * x else next

/-- The loop, /repo/include/fub/NewtonIteration.hpp:35-43; the first argument is `max_iterations - counter`. The result is the final `x` and
whether the loop was left with `counter == max_iterations`. -/
def newtonLoop (f Df : K → K) (tol : K) : Nat → K → K × Bool
  | 0, x => (x, true)
  | k + 1, x => if tol < |f x| then newtonLoop f Df tol k (newtonStep f Df x) else (x, false)

/-- `NewtonIteration(f, Df, x0, tolerance, max_iterations)`, /repo/include/fub/NewtonIteration.hpp:28-52; `none` is the exception.
With a negative limit the loop is not entered and `counter == max_iterations` is false. -/
def newtonIteration (f Df : K → K) (x0 tol : K) (maxIter : Int) : Option K :=
  if maxIter < 0 then some x0
  else
    let r := newtonLoop f Df tol maxIter.toNat x0
    if r.2 = true ∧ tol < f r.1 then none else some r.1

end

end Fub
