import Verif.Model.NodalHelm

/-!
The low Mach number solver. Source: `/repo/src/equations/CompressibleAdvection.cpp`, `/repo/include/fub/equations/CompressibleAdvection.hpp` and `/repo/src/AMReX/solver/BK19LevelIntegrator.cpp`.

Simplifications: exact numbers instead of `double`; two space dimensions (the code has a `static_assert` for it); a doubly periodic level, with fields as functions on index types with a successor, as in `Verif.Model.NodalHelm` (ghost cells are
the periodic images); the linear solver is not modelled, only the system that it has to solve.
-/

namespace Fub

section Advection
variable {K : Type} [Field K]

/-- The complete state of `CompressibleAdvection<2>`. /repo/include/fub/equations/CompressibleAdvection.hpp:30-95 -/
structure LMCell (K : Type) where
  density : K
  mx : K
  my : K
  pt : K
  ptinv : K

/-- The conservative part. /repo/include/fub/equations/CompressibleAdvection.hpp:30-95 -/
@[ext] structure LMCons (K : Type) where
  density : K
  mx : K
  my : K
  pt : K

/-- `CompleteFromCons`. /repo/include/fub/equations/CompressibleAdvection.hpp:107-112 -/
def lmComplete (q : LMCons K) : LMCell K := ⟨q.density, q.mx, q.my, q.pt, q.density / q.pt⟩

/-- `LimitSlopes`: the mean of the two one-sided slopes, the limiter is commented out. /repo/src/equations/CompressibleAdvection.cpp:27-40 -/
def lmSlope (qL qM qR : K) : K :=
  let sL := qM - qL
  let sR := qR - qM
  (1 / 2) * (sL + sR)

/-- Reconstruction at the right face of the middle of three cells. /repo/src/equations/CompressibleAdvection.cpp:113-115, 143-144 -/
def lmRecL (dt dx q0 q1 q2 v : K) : K := q1 + (1 / 2) * dx * (lmSlope q0 q1 q2 / dx) * (1 - v * (dt / dx))

/-- Reconstruction at the left face of the middle of three cells. /repo/src/equations/CompressibleAdvection.cpp:116-118, 145-146 -/
def lmRecR (dt dx q1 q2 q3 v : K) : K := q2 - (1 / 2) * dx * (lmSlope q1 q2 q3 / dx) * (1 + v * (dt / dx))

variable [LinearOrder K]

/-- `(Pv > 0) - (Pv < 0)`. /repo/src/equations/CompressibleAdvection.cpp:161 -/
def lmUpwind (pv : K) : K := (if pv > 0 then 1 else 0) - (if pv < 0 then 1 else 0)

/-- `ComputeNumericFluxes` of one face from four cells and the three mass-weighted face velocities around them. /repo/src/equations/CompressibleAdvection.cpp:106-178 -/
def lmFlux (dt dx : K) (s0 s1 s2 s3 : LMCell K) (pv1 pv2 pv3 : K) : LMCons K :=
  let v1 := (1 / 2) * (pv1 + pv2) / s1.pt
  let v2 := (1 / 2) * (pv2 + pv3) / s2.pt
  let chiL := lmRecL dt dx s0.ptinv s1.ptinv s2.ptinv v1
  let chiR := lmRecR dt dx s1.ptinv s2.ptinv s3.ptinv v2
  let uL := lmRecL dt dx (s0.mx / s0.density) (s1.mx / s1.density) (s2.mx / s2.density) v1
  let uR := lmRecR dt dx (s1.mx / s1.density) (s2.mx / s2.density) (s3.mx / s3.density) v2
  let wL := lmRecL dt dx (s0.my / s0.density) (s1.my / s1.density) (s2.my / s2.density) v1
  let wR := lmRecR dt dx (s1.my / s1.density) (s2.my / s2.density) (s3.my / s3.density) v2
  let up := lmUpwind pv2
  { density := pv2 * (1 / 2) * ((1 + up) * chiL + (1 - up) * chiR)
    mx := pv2 * (1 / 2) * ((1 + up) * chiL * uL + (1 - up) * chiR * uR)
    my := pv2 * (1 / 2) * ((1 + up) * chiL * wL + (1 - up) * chiR * wR)
    pt := pv2 }

/-- The signal speed of a cell in `ComputeStableDt`. /repo/src/equations/CompressibleAdvection.cpp:92-100 -/
def lmSpeed (pvL pvR pt : K) : K := |(1 / 2) * (pvL + pvR) / pt|

/-- `ComputeStableDt` of a patch: `none` for "no limit" (`DBL_MAX`). Input: the pair of face values and the density of every cell. /repo/src/equations/CompressibleAdvection.cpp:86-104 -/
def lmStableDt (dx : K) (cells : List (K × K × K)) : Option K :=
  let m := (cells.map fun c => lmSpeed c.1 c.2.1 c.2.2).foldl max (-1)
  if m > 0 then some (dx / m) else none

end Advection

section Fields
variable {I J K : Type} [AddGroupWithOne I] [AddGroupWithOne J] [Field K]

/-- `ComputePvFromScratch_` for one component of the momentum. /repo/src/AMReX/solver/BK19LevelIntegrator.cpp:194-209 -/
def lmPvX (s : I → J → LMCell K) (i : I) (j : J) : K := (s i j).pt * (s i j).mx / (s i j).density

/-- `ComputePvFromScratch_` for the other component. /repo/src/AMReX/solver/BK19LevelIntegrator.cpp:194-209 -/
def lmPvY (s : I → J → LMCell K) (i : I) (j : J) : K := (s i j).pt * (s i j).my / (s i j).density

/-- `AverageCellToFace_` in x-direction; face `(i, j)` lies between the cells `(i-1, j)` and `(i, j)`. /repo/src/AMReX/solver/BK19LevelIntegrator.cpp:128-149 -/
def lmFaceX (c : I → J → K) (i : I) (j : J) : K :=
  (1 * c (i - 1) (j - 1) + 1 * c i (j - 1) + 2 * c (i - 1) j + 2 * c i j + 1 * c (i - 1) (j + 1) + 1 * c i (j + 1)) * (1 / 8)

/-- `AverageCellToFace_` in y-direction. /repo/src/AMReX/solver/BK19LevelIntegrator.cpp:150-170 -/
def lmFaceY (c : I → J → K) (i : I) (j : J) : K :=
  (1 * c (i - 1) j + 2 * c i j + 1 * c (i + 1) j + 1 * c (i - 1) (j - 1) + 2 * c i (j - 1) + 1 * c (i + 1) (j - 1)) * (1 / 8)

/-- `AverageCellToNode_`. /repo/src/AMReX/solver/BK19LevelIntegrator.cpp:176-192 -/
def lmNodeAvg (c : I → J → K) (i : I) (j : J) : K := (1 / 4) * c (i - 1) (j - 1) + (1 / 4) * c i (j - 1) + (1 / 4) * c (i - 1) j + (1 / 4) * c i j

variable [LinearOrder K]

/-- One directional sweep in x-direction with given face values: fluxes, conservative update, completion. /repo/src/equations/CompressibleAdvection.cpp:180-208 and the update of the flux differences in /repo/src/HyperbolicPatchIntegrator.cpp -/
def lmSweepX (dx dt : K) (pv : I → J → K) (s : I → J → LMCell K) (i : I) (j : J) : LMCell K :=
  let flux := fun (i : I) => lmFlux dt dx (s (i - 2) j) (s (i - 1) j) (s i j) (s (i + 1) j) (pv (i - 1) j) (pv i j) (pv (i + 1) j)
  let fL := flux i
  let fR := flux (i + 1)
  lmComplete
    { density := (s i j).density + dt / dx * (fL.density - fR.density)
      mx := (s i j).mx + dt / dx * (fL.mx - fR.mx)
      my := (s i j).my + dt / dx * (fL.my - fR.my)
      pt := (s i j).pt + dt / dx * (fL.pt - fR.pt) }

/-- One directional sweep in y-direction. /repo/src/equations/CompressibleAdvection.cpp:180-208 -/
def lmSweepY (dy dt : K) (pv : I → J → K) (s : I → J → LMCell K) (i : I) (j : J) : LMCell K :=
  let flux := fun (j : J) => lmFlux dt dy (s i (j - 2)) (s i (j - 1)) (s i j) (s i (j + 1)) (pv i (j - 1)) (pv i j) (pv i (j + 1))
  let fL := flux j
  let fR := flux (j + 1)
  lmComplete
    { density := (s i j).density + dt / dy * (fL.density - fR.density)
      mx := (s i j).mx + dt / dy * (fL.mx - fR.mx)
      my := (s i j).my + dt / dy * (fL.my - fR.my)
      pt := (s i j).pt + dt / dy * (fL.pt - fR.pt) }

/-- `Advect_`: the directional sweeps that the splitting method prescribes (`true` for x), all with the same face values. /repo/src/AMReX/solver/BK19LevelIntegrator.cpp:262-266 -/
def lmAdvect (dx dy : K) (pvx pvy : I → J → K) (sweeps : List (Bool × K)) (s : I → J → LMCell K) : I → J → LMCell K :=
  sweeps.foldl (fun s w => if w.1 then lmSweepX dx w.2 pvx s else lmSweepY dy w.2 pvy s) s

/-- The physical parameters. `k2` is the third component of `k_vect`. /repo/include/fub/AMReX/solver/BK19LevelIntegrator.hpp:66-86 -/
structure LMParam (K : Type) where
  cp : K
  f : K
  k2 : K
  alphaP : K

/-- The Coriolis part of `DoEulerBackward_`. /repo/src/AMReX/solver/BK19LevelIntegrator.cpp:214-221, 281-288 -/
def lmCoriolisBackward (p : LMParam K) (dt : K) (q : LMCell K) : LMCell K :=
  let fac1 := -dt * p.f
  let w := 1 / (1 + (dt * p.f) ^ 2)
  { q with mx := (q.mx + fac1 * (q.my * (-p.k2))) * w, my := (q.my + fac1 * (q.mx * p.k2)) * w }

/-- The weight `sigma` in `DoEulerBackward_`. /repo/src/AMReX/solver/BK19LevelIntegrator.cpp:349-357 -/
def lmSigma (p : LMParam K) (dt : K) (q : LMCell K) : K := p.cp * dt / (1 + (dt * p.f) ^ 2) * q.pt / q.ptinv

/-- The linear operator as set by `DoEulerBackward_`. `dfac` is the diagonal factor of a cell as a function of `PTdensity`; `old` is the diagonal the operator had before, which is only replaced if `alpha_p > 0`.
/repo/src/AMReX/solver/BK19LevelIntegrator.cpp:292-312, 349-379 -/
def lmHelm (p : LMParam K) (dt dxinv dyinv : K) (dfac : K → K) (old : I → J → K) (s : I → J → LMCell K) : HelmCoef I J K :=
  { sig := fun i j => lmSigma p dt (s i j)
    sigc0 := fun i j => lmSigma p dt (s i j) * (1 * dt * p.f)
    sigc1 := fun i j => lmSigma p dt (s i j) * (-1 * dt * p.f)
    alp := if p.alphaP > 0 then lmNodeAvg (fun i j => dfac (s i j).pt) else old
    dxinv := dxinv
    dyinv := dyinv }

/-- The right-hand side of the pressure equation, from the state after the Coriolis part. /repo/src/AMReX/solver/BK19LevelIntegrator.cpp:314-332 -/
def lmRhs (dxinv dyinv : K) (dfac : K → K) (piOld : I → J → K) (s : I → J → LMCell K) (i : I) (j : J) : K :=
  nodeDivu dxinv dyinv (fun _ _ => false) (lmPvX s) (lmPvY s) i j + piOld i j * lmNodeAvg (fun i j => dfac (s i j).pt) i j

/-- The momentum correction of `DoEulerBackward_`. /repo/src/AMReX/solver/BK19LevelIntegrator.cpp:396-421 -/
def lmCorrect (p : LMParam K) (dt dxinv dyinv : K) (pi : I → J → K) (s : I → J → LMCell K) (i : I) (j : J) : LMCell K :=
  let sig := fun i j => lmSigma p dt (s i j)
  let u := getFluxU dxinv sig pi i j
  let v := getFluxV dyinv sig pi i j
  let fac2 := -dt * p.f
  { s i j with
    mx := (s i j).mx + (u + fac2 * (v * (-p.k2))) * (s i j).ptinv
    my := (s i j).my + (v + fac2 * (u * p.k2)) * (s i j).ptinv }

/-- `DoEulerBackward_` with a linear solver: the new state and the new pressure. /repo/src/AMReX/solver/BK19LevelIntegrator.cpp:267-425 -/
def lmBackward (solve : HelmCoef I J K → (I → J → K) → I → J → K) (p : LMParam K) (dt dxinv dyinv : K) (dfac : K → K) (old piOld : I → J → K) (s : I → J → LMCell K) :
    (I → J → LMCell K) × (I → J → K) :=
  let s1 := fun i j => lmCoriolisBackward p dt (s i j)
  let pi := solve (lmHelm p dt dxinv dyinv dfac old s1) (lmRhs dxinv dyinv dfac piOld s1)
  (lmCorrect p dt dxinv dyinv pi s1, pi)

/-- `DoEulerForward_`: the new state. /repo/src/AMReX/solver/BK19LevelIntegrator.cpp:444-472 -/
def lmForward (p : LMParam K) (dt dxinv dyinv : K) (pi : I → J → K) (s : I → J → LMCell K) (i : I) (j : J) : LMCell K :=
  let sig := fun i j => p.cp * dt * (s i j).pt
  let fac := -dt * p.f
  { s i j with
    mx := (s i j).mx + (getFluxU dxinv sig pi i j + fac * ((s i j).my * (-p.k2)))
    my := (s i j).my + (getFluxV dyinv sig pi i j + fac * ((s i j).mx * p.k2)) }

/-- `DoEulerForward_`: the new pressure; `dpi` is the derivative factor of a cell as a function of `PTdensity`. /repo/src/AMReX/solver/BK19LevelIntegrator.cpp:437-442, 478-508 -/
def lmForwardPi (p : LMParam K) (dxinv dyinv : K) (dpi : K → K) (pi : I → J → K) (s : I → J → LMCell K) (i : I) (j : J) : K :=
  if p.alphaP > 0 then pi i j + nodeDivu dxinv dyinv (fun _ _ => false) (lmPvX s) (lmPvY s) i j * lmNodeAvg (fun i j => dpi (s i j).pt) i j else pi i j

/-- The environment of a step: grid, parameters, factors for a time step size, linear solver, sweeps for a time step size, and whether the advection accepts a state and a step. Serves the model of /repo/src/AMReX/solver/BK19LevelIntegrator.cpp:543-680. -/
structure LMEnv (I J K : Type) where
  dx : K
  dy : K
  par : LMParam K
  dfac : K → K → K
  dpi : K → K → K
  solve : HelmCoef I J K → (I → J → K) → I → J → K
  sweeps : K → List (Bool × K)
  accepts : K → (I → J → K) → (I → J → K) → (I → J → LMCell K) → Bool

/-- The data on a level: cell states, nodal pressure, the diagonal stored in the linear operator. Serves the model of /repo/src/AMReX/solver/BK19LevelIntegrator.cpp:543-680. -/
structure LMLevel (I J K : Type) where
  state : I → J → LMCell K
  pi : I → J → K
  alp : I → J → K

/-- `AdvanceLevelNonRecursively`: `(success, data)`; on a failure of an advection step the data are left as they are (simplified: sweeps that succeeded before the failing one are not kept; the linear solver is a function; one level, periodic, no debug output). /repo/src/AMReX/solver/BK19LevelIntegrator.cpp:543-680 -/
def lmStep (e : LMEnv I J K) (dt : K) (d : LMLevel I J K) : Bool × LMLevel I J K :=
  let half := (1 / 2) * dt
  let pvx := lmFaceX (lmPvX d.state)
  let pvy := lmFaceY (lmPvY d.state)
  if e.accepts half pvx pvy d.state = false then (false, d) else
  let s1 := lmAdvect e.dx e.dy pvx pvy (e.sweeps half) d.state
  let b := lmBackward e.solve e.par half (1 / e.dx) (1 / e.dy) (e.dfac half) d.alp d.pi s1
  let alp1 := if e.par.alphaP > 0 then lmNodeAvg (fun i j => e.dfac half (s1 i j).pt) else d.alp
  let pi1 := if e.par.alphaP = 0 then b.2 else d.pi
  let qvx := lmFaceX (lmPvX b.1)
  let qvy := lmFaceY (lmPvY b.1)
  let s2 := lmForward e.par half (1 / e.dx) (1 / e.dy) pi1 d.state
  let pi2 := lmForwardPi e.par (1 / e.dx) (1 / e.dy) (e.dpi half) pi1 d.state
  if e.accepts dt qvx qvy s2 = false then (false, ⟨s2, pi2, alp1⟩) else
  let s3 := lmAdvect e.dx e.dy qvx qvy (e.sweeps dt) s2
  let r := lmBackward e.solve e.par half (1 / e.dx) (1 / e.dy) (e.dfac half) alp1 pi2 s3
  let alp2 := if e.par.alphaP > 0 then lmNodeAvg (fun i j => e.dfac half (s3 i j).pt) else alp1
  (true, ⟨r.1, r.2, alp2⟩)

/-- `InitialProjection`: one backward step of size one without Coriolis force and compressibility; the computed pressure is discarded. The diagonal factor is `0` because `alpha_p = 0`. /repo/src/AMReX/solver/BK19LevelIntegrator.cpp:682-703 -/
def lmInitialProjection (e : LMEnv I J K) (d : LMLevel I J K) : LMLevel I J K :=
  { d with state := (lmBackward e.solve { e.par with alphaP := 0, f := 0 } 1 (1 / e.dx) (1 / e.dy) (fun _ => 0) d.alp d.pi d.state).1 }

end Fields
end Fub
