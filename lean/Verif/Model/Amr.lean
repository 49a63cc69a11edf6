import Verif.Model.LevelIntegrator
import Verif.Model.IndexBox
import Mathlib.Data.Fintype.Pi
import Mathlib.Data.Fintype.BigOperators
import Mathlib.Order.Interval.Finset.Basic
import Mathlib.Algebra.BigOperators.Group.Finset.Basic

/-!
# Conserved data on a hierarchy of refinement levels

Source: `/repo/src/AMReX/IntegratorContext.cpp:451-533` (coarsening, flux registers, flux correction), `/repo/src/AMReX/TimeIntegrator.cpp:29-57` with
`/repo/src/HyperbolicPatchIntegrator.cpp:88-106` (update), combined with the time stepping of `Verif.Model.Subcycle` and `Verif.Model.LevelIntegrator`.

Simplifications: one conserved variable (all components are treated alike); the patches of a level are represented by the set of their
cells; the refinement ratio of a level is the same in all directions; the grids do not change during the step; no periodic
directions. The flux register of a level stores one number per coarse face; AMReX stores only the faces around the fine patches, the others are never
read here.
-/

namespace Fub
open Finset

/-- The grids of a hierarchy. Serves the model of /repo/src/AMReX/TimeIntegrator.cpp:29-57. -/
structure Grids (n : Nat) where
  /-- number of existing levels -/
  levels : Nat
  /-- refinement ratio to the coarser level, `GetRatioToCoarserLevel(level)` -/
  ratio : Nat → Nat
  /-- cells of the physical domain in the index space of a level -/
  domain : Nat → Finset (Index n)
  /-- cells of the patches of a level -/
  cells : Nat → Finset (Index n)
  /-- cells of a level that are covered by the next finer level -/
  covered : Nat → Finset (Index n)

/-- One conservative update: level, step size, direction and the face fluxes that were used. Serves the model of /repo/include/fub/AMReX/IntegratorContext.hpp:237-283. -/
structure FluxUse (n : Nat) (K : Type) where
  level : Nat
  dt : K
  dir : Fin n
  flux : Index n → K

/-- The data of the integrator context: conserved variable, fluxes, flux registers, and everything else. `log` is not part of the
program; it records which fluxes the updates used. /repo/include/fub/AMReX/IntegratorContext.hpp:237-283 -/
structure AmrState (n : Nat) (K X : Type) where
  /-- conserved variable in `scratch` of a level; outside of the cells of the level these are ghost cells -/
  u : Nat → Index n → K
  /-- `fluxes` of a level and direction; face `i` is the lower face of cell `i` -/
  flux : Nat → Fin n → Index n → K
  /-- `coarse_fine` of a level, by direction and coarse face -/
  reg : Nat → Fin n → Index n → K
  log : List (FluxUse n K)
  rest : X

/-- The coarse cell that contains a fine cell. Serves the model of /repo/src/AMReX/IntegratorContext.cpp:451-471. -/
def coarseOf {n : Nat} (r : Nat) (i : Index n) : Index n := fun d => i d / (r : Int)

/-- The fine cells of a coarse cell. Serves the model of /repo/src/AMReX/IntegratorContext.cpp:451-471. -/
def fineCells {n : Nat} (r : Nat) (j : Index n) : Finset (Index n) :=
  Fintype.piFinset fun d => Finset.Ico ((r : Int) * j d) ((r : Int) * j d + r)

/-- The fine faces that make up a coarse face. Serves the model of /repo/src/AMReX/IntegratorContext.cpp:473-500. -/
def fineFaces {n : Nat} (r : Nat) (d : Fin n) (j : Index n) : Finset (Index n) :=
  Fintype.piFinset fun e => if e = d then {(r : Int) * j d} else Finset.Ico ((r : Int) * j e) ((r : Int) * j e + r)

section
variable {n : Nat} {K X : Type} [Field K]

/-- Cell volume of a level with the given cell sizes. /repo/src/AMReX/IntegratorContext.cpp:485-486 -/
def cellVolume (dx : Nat → Fin n → K) (l : Nat) : K := ∏ d, dx l d

/-- `vol * scale / dx[dir]`. /repo/src/AMReX/IntegratorContext.cpp:487 -/
def faceWeight (dx : Nat → Fin n → K) (l : Nat) (d : Fin n) (scale : K) : K := cellVolume dx l * scale / dx l d

/-- `UpdateConservatively(level, dt, dir)` on all patches. /repo/src/AMReX/TimeIntegrator.cpp:29-57 -/
def amrUpdate (g : Grids n) (dx : Nat → Fin n → K) (l : Nat) (dt : K) (d : Fin n) (s : AmrState n K X) : AmrState n K X :=
  { s with
    u := fun k i => if k = l ∧ i ∈ g.cells l then s.u l i + dt / dx l d * (s.flux l d i - s.flux l d (shift i d 1)) else s.u k i
    log := s.log ++ [⟨l, dt, d, s.flux l d⟩] }

/-- `FluxRegister::FineAdd(fluxes, dir, 0, 0, ncomp, mult)` (AMReX): adds the sum of the fine fluxes over each coarse face. Serves the model of /repo/src/AMReX/IntegratorContext.cpp:473-500. -/
def fineAdd (r : Nat) (l : Nat) (d : Fin n) (flux : Index n → K) (mult : K) (reg : Nat → Fin n → Index n → K) : Nat → Fin n → Index n → K :=
  fun k e j => if k = l ∧ e = d then reg k e j + mult * ∑ i ∈ fineFaces r d j, flux i else reg k e j

/-- `FluxRegister::CrseInit(fluxes, dir, 0, 0, ncomp, mult, ADD)` (AMReX). Serves the model of /repo/src/AMReX/IntegratorContext.cpp:473-500. -/
def crseAdd (l : Nat) (d : Fin n) (flux : Index n → K) (mult : K) (reg : Nat → Fin n → Index n → K) : Nat → Fin n → Index n → K :=
  fun k e j => if k = l ∧ e = d then reg k e j + mult * flux j else reg k e j

/-- `AccumulateCoarseFineFluxes(level, scale, dir)`. /repo/src/AMReX/IntegratorContext.cpp:473-500 -/
def amrAccumulate (g : Grids n) (dx : Nat → Fin n → K) (l : Nat) (scale : K) (d : Fin n) (s : AmrState n K X) : AmrState n K X :=
  let reg := if 0 < l then fineAdd (g.ratio l) l d (s.flux l d) (faceWeight dx l d scale) s.reg else s.reg
  let reg := if l + 1 < g.levels then crseAdd (l + 1) d (s.flux l d) (-faceWeight dx l d scale) reg else reg
  { s with reg := reg }

/-- `ResetCoarseFineFluxes(fine, coarse)`: `ClearInternalBorders` followed by `setVal(0)`. /repo/src/AMReX/IntegratorContext.cpp:502-514 -/
def amrReset (fine : Nat) (s : AmrState n K X) : AmrState n K X :=
  { s with reg := fun k e j => if k = fine then 0 else s.reg k e j }

/-- `FluxRegister::Reflux(scratch, dir, 1.0, 0, 0, ncomp, cgeom)` (AMReX) for one direction: a coarse cell next to the refined region gets the register
divided by the cell volume, added at its lower face and subtracted at its upper face. AMReX also changes coarse cells inside the
refined region at borders between fine patches; these are overwritten by the coarsening that follows and left alone here. Serves the model of /repo/src/AMReX/IntegratorContext.cpp:516-533. -/
def amrRefluxDir (g : Grids n) (dx : Nat → Fin n → K) (fine coarse : Nat) (s : AmrState n K X) (d : Fin n) : AmrState n K X :=
  { s with
    u := fun k i => if k = coarse ∧ i ∈ g.cells coarse ∧ i ∉ g.covered coarse then
        s.u k i + (if shift i d (-1) ∈ g.covered coarse then s.reg fine d i / cellVolume dx coarse else 0)
          - (if shift i d 1 ∈ g.covered coarse then s.reg fine d (shift i d 1) / cellVolume dx coarse else 0)
      else s.u k i }

/-- `ApplyFluxCorrection(fine, coarse, dt)`: all directions. /repo/src/AMReX/IntegratorContext.cpp:516-533 -/
def amrCorrect (g : Grids n) (dx : Nat → Fin n → K) (fine coarse : Nat) (s : AmrState n K X) : AmrState n K X :=
  (List.finRange n).foldl (amrRefluxDir g dx fine coarse) s

/-- `CoarsenConservatively(fine, coarse)`: `average_down` (AMReX) replaces every covered coarse value by the mean of its fine cells.
/repo/src/AMReX/IntegratorContext.cpp:451-471 -/
def amrCoarsen (g : Grids n) (fine coarse : Nat) (s : AmrState n K X) : AmrState n K X :=
  { s with
    u := fun k i => if k = coarse ∧ i ∈ g.covered coarse then
        (∑ f ∈ fineCells (g.ratio fine) i, s.u fine f) / ((g.ratio fine : K) ^ n)
      else s.u k i }

/-- The parts of the context that are arbitrary: flux method, boundary conditions, completion of states, user hooks. Serves the model of /repo/include/fub/AMReX/IntegratorContext.hpp:237-283. -/
structure AmrHooks (n : Nat) (K X : Type) where
  ranks : Nat
  pre : Nat → K → Nat × Nat → AmrState n K X → AmrState n K X
  applyBc : Nat → Int → AmrState n K X → AmrState n K X
  preSplit : Nat → K → Int → Nat → AmrState n K X → AmrState n K X
  localDt : Nat → AmrState n K X → Int → Nat → K
  fluxes : Nat → K → Int → AmrState n K X → AmrState n K X
  complete : Nat → K → AmrState n K X → AmrState n K X
  copyBack : Nat → AmrState n K X → AmrState n K X
  fillSingle : Nat → AmrState n K X → AmrState n K X
  fillTwo : Nat → Nat → AmrState n K X → AmrState n K X
  post : Nat → K → Nat × Nat → AmrState n K X → AmrState n K X × Option (StepErr K)
  stableDt : AmrState n K X → Nat → K
  cycles : AmrState n K X → Int

/-- The operations of the level integrator on one level. Serves the model of /repo/include/fub/solver/DimensionalSplitLevelIntegrator.hpp:223-275. -/
def amrDirOps [NeZero n] (g : Grids n) (dx : Nat → Fin n → K) (h : AmrHooks n K X) (l : Nat) : DirOps K (AmrState n K X) where
  ranks := h.ranks
  applyBc := h.applyBc l
  preSplit := h.preSplit l
  localDt := h.localDt l
  fluxes := h.fluxes l
  update := fun dt d => amrUpdate g dx l dt (Fin.ofNat n d.toNat)
  complete := h.complete l
  accumulate := fun scale d => amrAccumulate g dx l scale (Fin.ofNat n d.toNat)

/-- The hierarchy as seen by the subcycling solvers. Serves the model of /repo/include/fub/solver/SubcycleFineFirstSolver.hpp:114-193. -/
def amrSys [NeZero n] [LinearOrder K] (g : Grids n) (dx : Nat → Fin n → K) (h : AmrHooks n K X)
    (M : Split2 K (SplitState (AmrState n K X)) (StepErr K)) : LevelSys K (AmrState n K X) where
  levelExists := fun _ l => decide (l < g.levels)
  ratio := g.ratio
  stableDt := h.stableDt
  pre := h.pre
  reset := fun fine _ => amrReset fine
  adv := fun l dt sub s => advanceNonRecursively (amrDirOps g dx h l) M n l (h.cycles s) sub.1 dt s
  corr := fun fine coarse _ => amrCorrect g dx fine coarse
  coarsen := amrCoarsen g
  complete := h.complete
  copyBack := h.copyBack
  fillSingle := h.fillSingle
  fillTwo := h.fillTwo
  post := h.post
  cycles := h.cycles

end
end Fub
