import Verif.Model.Flux

/-!
The scalar equations: Burgers and advection, with their exact Riemann solvers and signals, and the first order
finite volume step on a line of cells.
-/

namespace Fub
variable {K : Type} [Field K] [LinearOrder K]

/-- `Burgers1d::Flux`. /repo/src/equations/Burgers.cpp:25-37 -/
def burgersFlux (u : K) : K := 1 / 2 * u * u

/-- `ExactRiemannSolver<Burgers1d>::SolveRiemannProblem`. /repo/src/equations/Burgers.cpp:39-54 -/
def burgersSolve (l r : K) : K :=
  if r < l then
    let s := 1 / 2 * (l + r)
    if s < 0 then r else l
  else if 0 < l then l
  else if r < 0 then r
  else 0

/-- The array version, one lane. /repo/src/equations/Burgers.cpp:56-64 -/
def burgersSolveArray (l r : K) : K :=
  let s := 1 / 2 * (l + r)
  let byS := if s < 0 then r else l
  let sol := if 0 < l then l else 0
  let sol := if r < 0 then r else sol
  if r < l then byS else sol

/-- `ComputeSignals`. /repo/src/equations/Burgers.cpp:66-73 -/
def burgersSignals (l r : K) : List K :=
  if r < l then
    let s := 1 / 2 * (l + r)
    [s]
  else [max |l| |r|]

/-- The array version, one lane. /repo/src/equations/Burgers.cpp:75-80 -/
def burgersSignalsArray (l r : K) : List K :=
  let s := 1 / 2 * (l + r)
  let m := max |l| |r|
  [if r < l then s else m]

/-- The Burgers equation as seen by a flux method: one component, no dependent variables. /repo/include/fub/equations/Burgers.hpp:35-59 -/
def burgersEqn : EqnOps K K Unit where
  cons u _ := u
  setCons _ u := u ()
  complete u := u ()
  flux u _ := burgersFlux u

/-- `Advection2d::Flux` in a direction with velocity `v`. /repo/src/equations/Advection.cpp:25-35 -/
def advectionEqn (v : K) : EqnOps K K Unit where
  cons u _ := u
  setCons _ u := u ()
  complete u := u ()
  flux u _ := u * v

/-- `ExactRiemannSolver<Advection2d>::SolveRiemannProblem`, scalar and array version. /repo/src/equations/Advection.cpp:37-56 -/
def advectionSolve (v l r : K) : K := if 0 < v then l else r

/-- `ComputeSignals`. /repo/src/equations/Advection.cpp:58-66 -/
def advectionSignals (v _l _r : K) : List K := [v]

/-- One conservative update of all cells of a line with the Godunov flux: the flux at the face between cell `i - 1` and cell
`i` is computed from these two cells, and `u_i ← u_i + dt/dx (F_i - F_{i+1})`.
/repo/include/fub/flux_method/FluxMethod.hpp:200-216, /repo/src/HyperbolicPatchIntegrator.cpp:35-62.
Simplification: the line of cells is infinite; a periodic domain with `N` cells is periodic data. -/
def godunovStep (E : EqnOps K K Unit) (solve : K → K → K) (dt dx : K) (u : Int → K) : Int → K :=
  fun i => u i + dt / dx * (godunovFlux E solve (u (i - 1)) (u i) () - godunovFlux E solve (u i) (u (i + 1)) ())

/-- The stable step size at the face between cells `i - 1` and `i`. /repo/include/fub/flux_method/GodunovMethod.hpp:162-170 -/
def faceDt (signals : K → K → List K) (dx : K) (u : Int → K) (i : Int) : WithTop K :=
  signalDt (signals (u (i - 1)) (u i)) dx

end Fub
