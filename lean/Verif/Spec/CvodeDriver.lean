import Verif.Model.CvodeDriver

/-!
# What the CVODE library promises for its calls
-/

namespace Fub
variable {K : Type*} [Field K] [LinearOrder K] [IsStrictOrderedRing K]

/-- The calls of `CVode` follow the exact solution `sol`, every internal step advances the time by at least `h`: in normal mode the library returns the solution at the
final time, in one-step mode at the time it reached. `k` counts the calls from zero. -/
structure CvodeFollows (run : CvodeRun K) (t0 tend : K) (sol : K → List K) (h : K) : Prop where
  normal : run.normal.flag = 0 ∧ run.normal.t = tend ∧ run.normal.y = sol tend
  stepFlag : ∀ k, (run.step k).flag = 0
  stepValue : ∀ k, (run.step k).y = sol (run.step k).t
  first : t0 + h ≤ (run.step 0).t
  advance : ∀ k, (run.step k).t + h ≤ (run.step (k + 1)).t

end Fub
