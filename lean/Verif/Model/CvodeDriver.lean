import Mathlib.Algebra.Order.Field.Basic
import Mathlib.Algebra.Order.Ring.Abs

/-!
# The driver of the CVODE library

Model of `/repo/src/ode_solver/CVodeSolver.cpp`. The library itself is a parameter: every call of `CVode` hands back a return code, a time and a vector, and nothing is
assumed about them here. Memory management is not modelled, and numbers are elements of an ordered field.
-/

namespace Fub

/-- What one call of `CVode` hands back: return code (0 success, 2 a root was found, negative a failure), the time reached and the vector.
Used at /repo/src/ode_solver/CVodeSolver.cpp:131-134 -/
structure CvodeReturn (K : Type*) where
  flag : ℤ
  t : K
  y : List K

/-- One initialised integration: the call with `CV_NORMAL`, and the successive calls with `CV_ONE_STEP`. Used at /repo/src/ode_solver/CVodeSolver.cpp:130-134 -/
structure CvodeRun (K : Type*) where
  normal : CvodeReturn K
  step : ℕ → CvodeReturn K

/-- The library: from the initial time, the final time, the initial vector, the absolute tolerances and whether there is a root function.
Used at /repo/src/ode_solver/CVodeSolver.cpp:118-127 -/
abbrev CvodeKernel (K : Type*) := K → K → List K → List K → Bool → CvodeRun K

/-- Members of the solver: the size of its vectors, what the vectors `y` and `abstol` hold from the last call, and whether a root function is set.
/repo/include/fub/ode_solver/CVodeSolver.hpp:62-65 -/
structure CvodeObject (K : Type*) where
  y : List K
  abstol : List K
  hasRoot : Bool

/-- Outcome of a call: it writes behind the end of a vector, is still in its loop, or returns with the vector and the calls of the observer.
Serves the model of /repo/src/ode_solver/CVodeSolver.cpp:72-140. -/
inductive CvodeOutcome (K : Type*)
  | outOfBounds
  | running
  | done (y : List K) (calls : List (List K × K))
deriving DecidableEq

section
variable {K : Type*} [Field K] [LinearOrder K] [IsStrictOrderedRing K]

/-- `relative_tolerance_`, which cannot be changed. /repo/include/fub/ode_solver/CVodeSolver.hpp:65 -/
def cvodeRelTol : K := 1 / 10 ^ 10

/-- The absolute tolerance of one component. /repo/src/ode_solver/CVodeSolver.cpp:114-116 -/
def cvodeAbsTol (yi : K) : K := max (cvodeRelTol * |yi|) (1 / 10 ^ 8)

/-- `std::copy` to the begin of a vector: the rest keeps its values. /repo/src/ode_solver/CVodeSolver.cpp:112-116 -/
def copyFront (src dst : List K) : List K := src ++ dst.drop src.length

/-- The loop with an observer; `m` is the size of the vector of the caller, `k` counts the calls of `CVode`, `fuel` bounds the passes that are looked at.
/repo/src/ode_solver/CVodeSolver.cpp:133-139 -/
def cvodeLoop (run : CvodeRun K) (tend : K) (m : ℕ) : ℕ → ℕ → K → List K → List (List K × K) → CvodeOutcome K
  | 0, _, _, _, _ => .running
  | fuel + 1, k, t, y, calls =>
    if t < tend then
      let r := run.step k
      cvodeLoop run tend m fuel (k + 1) r.t r.y (calls ++ [(r.y.take m, r.t)])
    else .done (y.take m) calls

/-- `CVodeSolver::integrate(system, y_0, t0, dt, feedback, jacobian)`. /repo/src/ode_solver/CVodeSolver.cpp:72-140.
The right hand side and the Jacobian are part of the kernel. -/
def cvodeIntegrate (kernel : CvodeKernel K) (o : CvodeObject K) (y0 : List K) (t0 dt : K) (feedback : Bool) (fuel : ℕ) : CvodeOutcome K :=
  if o.y.length < y0.length then .outOfBounds
  else
    let y := copyFront y0 o.y
    let abstol := copyFront (y0.map cvodeAbsTol) o.abstol
    let tend := t0 + dt
    let run := kernel t0 tend y abstol o.hasRoot
    if feedback then cvodeLoop run tend y0.length fuel 0 t0 y []
    else .done (run.normal.y.take y0.length) []

/-- `clone`: a new solver with vectors of the same size, whose content is not initialised (`junk`). /repo/src/ode_solver/CVodeSolver.cpp:46-48 -/
def cvodeClone (o : CvodeObject K) (junk : ℕ → K) : CvodeObject K :=
  ⟨(List.range o.y.length).map junk, (List.range o.y.length).map junk, false⟩

end

end Fub
