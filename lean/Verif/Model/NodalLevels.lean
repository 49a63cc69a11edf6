import Verif.Model.NodalWall
import Mathlib.Algebra.BigOperators.Group.Finset.Basic
import Mathlib.Algebra.Field.Basic

/-!
Coefficients of the nodal operator on all refinement levels and all multigrid levels. Source: `/repo/src/AMReX/MLMG/MLNodeHelmDualCstVel.cpp`, class `MLNodeHelmDualCstVel` (two dimensions).

An array is a function on all indices. Its valid cells are those of the grids of the level, everything else is a ghost cell. A null pointer, and a `MultiFab` which has never been defined, is `none`.
Simplifications: exact numbers; the parallel copy between different distributions of a multigrid level is the identity; the masks, the parent class `MLNodeLinOp` and `FillBoundary` are AMReX (`FillBoundary` is a parameter).
-/

namespace Fub

variable {K : Type}

/-- What `MLNodeLinOp::define` of AMReX sets up: the number of refinement levels, of multigrid levels on each, the valid cells of each, the valid nodes of the finest multigrid level, the refinement ratios, the exchange of ghost cells, the domains with the grids and the sides as seen by `mlndhelm_fillbc_cc`, and the inverse mesh widths. /repo/src/AMReX/MLMG/MLNodeHelmDualCstVel.cpp:70-84,591-611 -/
structure HelmGrids (K : Type) where
  namr : ℕ
  nmg : ℕ → ℕ
  cells : ℕ → ℕ → ℤ → ℤ → Bool
  nodes : ℕ → ℤ → ℤ → Bool
  ratio : ℕ → ℕ
  exchange : ℕ → ℕ → (ℤ → ℤ → K) → ℤ → ℤ → K
  mirror : ℕ → ℕ → (ℤ → ℤ → K) → ℤ → ℤ → K
  dxinv : ℕ → ℕ → K
  dyinv : ℕ → ℕ → K

/-- The members of the operator. `sigma a m 0` is `m_sigma[a][m][0]`; for `m = 0` the entry `m_sigma[a][0][1]` can only be an alias of `m_sigma[a][0][0]`, which `aliased a` tells. `cross a m` is `m_sigmacross[a][m][0]` with its two components, `alpha a m` is `m_alpha[a][m]`. /repo/include/fub/AMReX/MLMG/MLNodeHelmDualCstVel.hpp:141-148 -/
structure HelmStore (K : Type) where
  sigma : ℕ → ℕ → Fin 2 → Option (ℤ → ℤ → K)
  aliased : ℕ → Bool
  cross : ℕ → ℕ → Option ((ℤ → ℤ → K) × (ℤ → ℤ → K))
  alpha : ℕ → ℕ → Option (ℤ → ℤ → K)
  harmonic : Bool

/-- `m_sigma[a][m][d]`, with the alias. /repo/src/AMReX/MLMG/MLNodeHelmDualCstVel.cpp:469-473 -/
def HelmStore.sigmaAt (s : HelmStore K) (a m : ℕ) (d : Fin 2) : Option (ℤ → ℤ → K) :=
  if m = 0 ∧ d = 1 then (if s.aliased a then s.sigma a 0 0 else none) else s.sigma a m d

/-- Write `m_sigma[a][m][d]`. Serves the model of /repo/src/AMReX/MLMG/MLNodeHelmDualCstVel.cpp:112-115,525-588. -/
def HelmStore.setSig (s : HelmStore K) (a m : ℕ) (d : Fin 2) (f : ℤ → ℤ → K) : HelmStore K :=
  { s with sigma := fun a' m' d' => if a' = a ∧ m' = m ∧ d' = d then some f else s.sigma a' m' d' }

/-- `MultiFab::Copy(dst, src, ..., 0)`: copies the valid cells. Serves the model of /repo/src/AMReX/MLMG/MLNodeHelmDualCstVel.cpp:112-128. -/
def copyValid (valid : ℤ → ℤ → Bool) (dst src : ℤ → ℤ → K) : ℤ → ℤ → K := fun i j => if valid i j then src i j else dst i j

section Zero
variable [Zero K]

/-- `define`: the coefficients of multigrid level 0 are allocated and zero; nothing is allocated on the others. /repo/src/AMReX/MLMG/MLNodeHelmDualCstVel.cpp:86-107 -/
def helmDefine (g : HelmGrids K) : HelmStore K where
  sigma := fun a m d => if a < g.namr ∧ m = 0 ∧ d = 0 then some (fun _ _ => 0) else none
  aliased := fun _ => false
  cross := fun a m => if a < g.namr ∧ m = 0 then some (fun _ _ => 0, fun _ _ => 0) else none
  alpha := fun a m => if a < g.namr ∧ m = 0 then some (fun _ _ => 0) else none
  harmonic := false

/-- First loop of `averageDownCoeffs`: what is missing is allocated, one component without and two with harmonic averages, and only for `m_sigma`. /repo/src/AMReX/MLMG/MLNodeHelmDualCstVel.cpp:462-481 -/
def helmAllocate (g : HelmGrids K) (s : HelmStore K) : HelmStore K :=
  { s with
    sigma := fun a m d => if a < g.namr ∧ m < g.nmg a ∧ 0 < m ∧ (d = 0 ∨ s.harmonic = true) ∧ (s.sigma a m d).isNone then some (fun _ _ => 0) else s.sigma a m d
    aliased := fun a => s.aliased a || (s.harmonic && decide (a < g.namr) && decide (0 < g.nmg a)) }

end Zero

/-- `setSigma`: a null pointer or a level out of range is `none`. /repo/src/AMReX/MLMG/MLNodeHelmDualCstVel.cpp:111-115 -/
def setSigma (g : HelmGrids K) (a : ℕ) (f : ℤ → ℤ → K) (s : HelmStore K) : Option (HelmStore K) :=
  (s.sigma a 0 0).map fun old => s.setSig a 0 0 (copyValid (g.cells a 0) old f)

/-- `setSigmaCross`. /repo/src/AMReX/MLMG/MLNodeHelmDualCstVel.cpp:117-121 -/
def setSigmaCross (g : HelmGrids K) (a : ℕ) (f : (ℤ → ℤ → K) × (ℤ → ℤ → K)) (s : HelmStore K) : Option (HelmStore K) :=
  (s.cross a 0).map fun old =>
    { s with cross := fun a' m' => if a' = a ∧ m' = 0 then some (copyValid (g.cells a 0) old.1 f.1, copyValid (g.cells a 0) old.2 f.2) else s.cross a' m' }

/-- `setAlpha`, without the flag for the bottom solver. /repo/src/AMReX/MLMG/MLNodeHelmDualCstVel.cpp:123-128 -/
def setAlpha (g : HelmGrids K) (a : ℕ) (f : ℤ → ℤ → K) (s : HelmStore K) : Option (HelmStore K) :=
  (s.alpha a 0).map fun old =>
    { s with alpha := fun a' m' => if a' = a ∧ m' = 0 then some (copyValid (g.nodes a) old f) else s.alpha a' m' }

section Field
variable [Field K]

/-- `mlndhelm_avgdown_coeff_x` for direction 0 and `mlndhelm_avgdown_coeff_y` for direction 1. /repo/src/AMReX/MLMG/MLNodeHelmDualCstVel.cpp:561-580 -/
def avgdownDir (d : Fin 2) (fine : ℤ → ℤ → K) : ℤ → ℤ → K := if d = 0 then avgdownX fine else avgdownY fine

/-- `averageDownCoeffsSameAmrLevel`, one multigrid level and one direction: a null pointer is `none`. /repo/src/AMReX/MLMG/MLNodeHelmDualCstVel.cpp:542-585 -/
def avgdownOne (g : HelmGrids K) (a m : ℕ) (d : Fin 2) (s : HelmStore K) : Option (HelmStore K) := do
  let fine ← s.sigmaAt a (m - 1) d
  let crse ← s.sigma a m d
  pure (s.setSig a m d (copyValid (g.cells a m) crse (avgdownDir d fine)))

/-- `averageDownCoeffsSameAmrLevel`, one multigrid level: one direction without, two with harmonic averages. /repo/src/AMReX/MLMG/MLNodeHelmDualCstVel.cpp:536-541 -/
def avgdownLevel (g : HelmGrids K) (a m : ℕ) (s : HelmStore K) : Option (HelmStore K) := do
  let s ← avgdownOne g a m 0 s
  if s.harmonic then avgdownOne g a m 1 s else pure s

/-- `averageDownCoeffsSameAmrLevel` for the first `n` coarser multigrid levels. /repo/src/AMReX/MLMG/MLNodeHelmDualCstVel.cpp:533-588 -/
def avgdownSame (g : HelmGrids K) (a : ℕ) : ℕ → HelmStore K → Option (HelmStore K)
  | 0, s => some s
  | n + 1, s => (avgdownSame g a n s).bind (avgdownLevel g a (n + 1))

/-- `amrex::average_down` for cell centered data: the coarse cells under the fine grids get the mean of their fine cells. Which coarse cells these are is read off their first fine cell (the grids of AMReX are coarsenable by the ratio). Serves the model of /repo/src/AMReX/MLMG/MLNodeHelmDualCstVel.cpp:529-530. -/
def amrAverage (r : ℕ) (fineCells crseCells : ℤ → ℤ → Bool) (fine crse : ℤ → ℤ → K) : ℤ → ℤ → K := fun i j =>
  if crseCells i j && fineCells (r * i) (r * j) then
    (∑ p ∈ Finset.range r, ∑ q ∈ Finset.range r, fine (r * i + p) (r * j + q)) / ((r : K) * r)
  else crse i j

/-- `averageDownCoeffsToCoarseAmrLevel`: only `m_sigma` is averaged. /repo/src/AMReX/MLMG/MLNodeHelmDualCstVel.cpp:524-531 -/
def avgdownAmr (g : HelmGrids K) (flev : ℕ) (s : HelmStore K) : Option (HelmStore K) := do
  let fine ← s.sigma flev 0 0
  let crse ← s.sigma (flev - 1) 0 0
  pure (s.setSig (flev - 1) 0 0 (amrAverage (g.ratio (flev - 1)) (g.cells flev 0) (g.cells (flev - 1) 0) fine crse))

/-- The loop over refinement levels of `averageDownCoeffs`, from level `n` down to level 1. /repo/src/AMReX/MLMG/MLNodeHelmDualCstVel.cpp:483-487 -/
def avgdownAll (g : HelmGrids K) : ℕ → HelmStore K → Option (HelmStore K)
  | 0, s => some s
  | n + 1, s => ((avgdownSame g (n + 1) (g.nmg (n + 1) - 1) s).bind (avgdownAmr g (n + 1))).bind (avgdownAll g n)

/-- `FillBoundaryCoeff` for an array with one component. /repo/src/AMReX/MLMG/MLNodeHelmDualCstVel.cpp:590-611 -/
def fillCoeff (g : HelmGrids K) (a m : ℕ) (f : ℤ → ℤ → K) : ℤ → ℤ → K := g.mirror a m (g.exchange a m f)

/-- `FillBoundaryCoeff` for `m_sigmacross`: `FillBoundary` treats all components, `mlndhelm_fillbc_cc` only the first. /repo/src/AMReX/MLMG/MLNodeHelmDualCstVel.cpp:590-611 -/
def fillCross (g : HelmGrids K) (a m : ℕ) (f : (ℤ → ℤ → K) × (ℤ → ℤ → K)) : (ℤ → ℤ → K) × (ℤ → ℤ → K) := (fillCoeff g a m f.1, g.exchange a m f.2)

/-- Last loop of `averageDownCoeffs`: with harmonic averages the cross coefficients are filled on the coarser multigrid levels only, where they do not exist. /repo/src/AMReX/MLMG/MLNodeHelmDualCstVel.cpp:491-521 -/
def helmFill (g : HelmGrids K) (s : HelmStore K) : HelmStore K :=
  { s with
    sigma := fun a m d => if a < g.namr ∧ m < g.nmg a ∧ (d = 0 ∨ (s.harmonic = true ∧ 0 < m)) then (s.sigma a m d).map (fillCoeff g a m) else s.sigma a m d
    cross := fun a m => if a < g.namr ∧ m < g.nmg a ∧ (s.harmonic = false ∨ 0 < m) then (s.cross a m).map (fillCross g a m) else s.cross a m }

/-- `prepareForSolve`, that is `averageDownCoeffs`. /repo/src/AMReX/MLMG/MLNodeHelmDualCstVel.cpp:457-522,635-645 -/
def helmPrepare (g : HelmGrids K) (s : HelmStore K) : Option (HelmStore K) :=
  ((avgdownAll g (g.namr - 1) (helmAllocate g s)).bind (avgdownSame g 0 (g.nmg 0 - 1))).map (helmFill g)

/-- The calls which change the coefficients. /repo/include/fub/AMReX/MLMG/MLNodeHelmDualCstVel.hpp:75-97 -/
inductive HelmOp (K : Type)
  | sigma (a : ℕ) (f : ℤ → ℤ → K)
  | cross (a : ℕ) (f : (ℤ → ℤ → K) × (ℤ → ℤ → K))
  | alpha (a : ℕ) (f : ℤ → ℤ → K)
  | harmonic (b : Bool)
  | prepare

/-- One call. /repo/src/AMReX/MLMG/MLNodeHelmDualCstVel.cpp:111-128,635-645 -/
def HelmOp.step (g : HelmGrids K) (s : HelmStore K) : HelmOp K → Option (HelmStore K)
  | .sigma a f => setSigma g a f s
  | .cross a f => setSigmaCross g a f s
  | .alpha a f => setAlpha g a f s
  | .harmonic b => some { s with harmonic := b }
  | .prepare => helmPrepare g s

/-- A history of calls. Serves the model of /repo/src/AMReX/MLMG/MLNodeHelmDualCstVel.cpp:111-128,635-645. -/
def helmRun (g : HelmGrids K) : List (HelmOp K) → HelmStore K → Option (HelmStore K)
  | [], s => some s
  | o :: os, s => (o.step g s).bind (helmRun g os)

/-- `Fapply` on one level: which kernel runs with which arrays. Dereferencing a null pointer or an undefined `MultiFab` is `none`. `Fsmooth` and `normalize` select the arrays of their kernels in the same way. /repo/src/AMReX/MLMG/MLNodeHelmDualCstVel.cpp:818-863,865-1083 -/
def helmFapply (g : HelmGrids K) (s : HelmStore K) (a m : ℕ) : Option ((ℤ → ℤ → Bool) → (ℤ → ℤ → K) → ℤ → ℤ → K) :=
  if s.harmonic = true ∧ 0 < m then do
    let sx ← s.sigmaAt a m 0
    let sy ← s.sigmaAt a m 1
    pure (helmApplyHa sx sy (g.dxinv a m) (g.dyinv a m))
  else do
    let sig ← s.sigma a m 0
    let sc ← s.cross a m
    let al ← s.alpha a m
    pure (helmApply ⟨sig, sc.1, sc.2, al, g.dxinv a m, g.dyinv a m⟩)

end Field
end Fub
