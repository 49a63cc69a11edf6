import Verif.Model.Splitting
import Mathlib.Algebra.Order.Field.Basic

/-!
# Model of the time stepping over refinement levels

Source: `/repo/include/fub/solver/SubcycleFineFirstSolver.hpp`, `/repo/include/fub/solver/NoSubcycleSolver.hpp`.

Simplifications: durations are exact numbers in an ordered field `K`; the program state (grid data, registers, clocks of
all levels on all MPI ranks) is an abstract type `S` and every operation of the level integrator is an arbitrary function
on it (structure `LevelSys`); refinement ratios are natural numbers without overflow and do not change;
the recursion of `AdvanceLevel` is bounded by a fuel argument, which the theorems take to be at least the number of levels.
-/

namespace Fub

/-- `TimeStepTooLarge`, /repo/include/fub/TimeStepError.hpp:71-74. -/
structure StepErr (K : Type) where
  /-- `dt` -/
  dt : K
  /-- `level` -/
  level : Nat
deriving DecidableEq

/-- The member functions of the level integrator (template parameter `LevelIntegrator`) that the subcycling solvers call,
/repo/include/fub/solver/SubcycleFineFirstSolver.hpp:114-193. -/
structure LevelSys (K S : Type) where
  /-- `LevelExists(level)` -/
  levelExists : S → Nat → Bool
  /-- `GetRatioToCoarserLevel(level).max()` -/
  ratio : Nat → Nat
  /-- `ComputeStableDt(level)`; one value for every MPI rank -/
  stableDt : S → Nat → K
  /-- `PreAdvanceLevel(level, dt, subcycle)` -/
  pre : Nat → K → Nat × Nat → S → S
  /-- `ResetCoarseFineFluxes(fine, coarse)` -/
  reset : Nat → Nat → S → S
  /-- `AdvanceLevelNonRecursively(level, dt, subcycle)` -/
  adv : Nat → K → Nat × Nat → S → S × Option (StepErr K)
  /-- `ApplyFluxCorrection(fine, coarse, dt)` -/
  corr : Nat → Nat → K → S → S
  /-- `CoarsenConservatively(fine, coarse)` -/
  coarsen : Nat → Nat → S → S
  /-- `CompleteFromCons(level, dt)` -/
  complete : Nat → K → S → S
  /-- `CopyScratchToData(level)` -/
  copyBack : Nat → S → S
  /-- `FillGhostLayerSingleLevel(level)` -/
  fillSingle : Nat → S → S
  /-- `FillGhostLayerTwoLevels(fine, coarse)` -/
  fillTwo : Nat → Nat → S → S
  /-- `PostAdvanceLevel(level, dt, subcycle)` -/
  post : Nat → K → Nat × Nat → S → S × Option (StepErr K)
  /-- `GetCycles()` (of level 0) -/
  cycles : S → Int

section
variable {K S : Type} [Field K] [LinearOrder K]

/-- `GetTotalRefineRatio(fine_level)` with the default `coarse_level = 0`,
/repo/include/fub/solver/SubcycleFineFirstSolver.hpp:90-98. -/
def totalRatio (ratio : Nat → Nat) : Nat → Nat
  | 0 => 1
  | l + 1 => ratio (l + 1) * totalRatio ratio l

/-- `for (int r = 0; r < n; ++r) { auto result = f(r); if (!result) return ...; }` starting at `r`. Serves the model of /repo/include/fub/solver/SubcycleFineFirstSolver.hpp:114-175. -/
def forSub {S E : Type} (f : Nat → S → S × Option E) : Nat → Nat → S → S × Option E
  | 0, _, s => (s, none)
  | n + 1, r, s => andThen (f r s) (fun s => forSub f n (r + 1) s)

/-- `scale_dt_on_error`, /repo/include/fub/solver/SubcycleFineFirstSolver.hpp:122-128. -/
def scaleErr (ratio : Nat → Nat) (e : StepErr K) : StepErr K :=
  { dt := e.dt * (totalRatio ratio e.level : K), level := 0 }

/-- `if (!result) return scale_dt_on_error(result);`. Serves the model of /repo/include/fub/solver/SubcycleFineFirstSolver.hpp:114-175. -/
def scaleRes (ratio : Nat → Nat) (r : S × Option (StepErr K)) : S × Option (StepErr K) :=
  (r.1, r.2.map (scaleErr ratio))

/-- `SubcycleFineFirstSolver::AdvanceLevel(this_level, dt, subcycle)`,
/repo/include/fub/solver/SubcycleFineFirstSolver.hpp:114-175. The first argument bounds the recursion depth. -/
def advanceLevel (B : LevelSys K S) : Nat → Nat → K → Nat × Nat → S → S × Option (StepErr K)
  | 0, _, _, _, s => (s, none)
  | fuel + 1, l, dt, sub, s =>
    let s := B.pre l dt sub s
    let r := if B.levelExists s (l + 1) then
        let s := B.reset (l + 1) l s
        let n := B.ratio (l + 1)
        scaleRes B.ratio (forSub (fun r s => advanceLevel B fuel (l + 1) (dt / (n : K)) (r, n) s) n 0 s)
      else (s, none)
    andThen r fun s =>
    andThen (scaleRes B.ratio (B.adv l dt sub s)) fun s =>
    let s := if B.levelExists s (l + 1) then B.corr (l + 1) l dt s else s
    let s := if B.levelExists s (l + 1) then B.complete l dt (B.coarsen (l + 1) l s) else s
    let s := B.copyBack l s
    scaleRes B.ratio (B.post l dt sub s)

/-- The loop `while (LevelExists(this_level)) { FillGhostLayerTwoLevels(this_level, this_level - 1); ++this_level; }`,
/repo/include/fub/solver/SubcycleFineFirstSolver.hpp:184-189; the first argument bounds the number of iterations. -/
def fillAllTwo (B : LevelSys K S) : Nat → Nat → S → S
  | 0, _, s => s
  | fuel + 1, l, s => if B.levelExists s l then fillAllTwo B fuel (l + 1) (B.fillTwo l (l - 1) s) else s

/-- `SubcycleFineFirstSolver::AdvanceHierarchy(dt)`, /repo/include/fub/solver/SubcycleFineFirstSolver.hpp:177-193.
`freq` is `regrid_frequency`; `num_step % 0` is undefined behaviour, modelled as outcome `none`. -/
def advanceHierarchy (B : LevelSys K S) (maxLevels : Nat) (freq : Int) (dt : K) (s : S) :
    Option (S × Option (StepErr K)) :=
  let r := advanceLevel B maxLevels 0 dt (0, 1) s
  match r.2 with
  | some e => some (r.1, some e)
  | none =>
    if freq = 0 then none
    else if (B.cycles r.1).tmod freq = 0 then
      some (fillAllTwo B maxLevels 1 (B.fillSingle 0 r.1), none)
    else some (r.1, none)

/-- `SubcycleFineFirstSolver::ComputeStableDt()`, /repo/include/fub/solver/SubcycleFineFirstSolver.hpp:100-112:
the loop over the existing levels starting at `l` with accumulator `acc`. The reduction over MPI ranks is part of
`stableDt`. The first argument bounds the number of iterations. -/
def stableDtLoop (B : LevelSys K S) (s : S) : Nat → Nat → K → K
  | 0, _, acc => acc
  | fuel + 1, l, acc =>
    if B.levelExists s l then
      stableDtLoop B s fuel (l + 1) (min acc ((totalRatio B.ratio l : K) * B.stableDt s l))
    else acc

/-- `SubcycleFineFirstSolver::ComputeStableDt()`; `big` is `numeric_limits<double>::max()`. Serves the model of /repo/include/fub/solver/SubcycleFineFirstSolver.hpp:100-112. -/
def computeStableDt (B : LevelSys K S) (maxLevels : Nat) (big : K) (s : S) : K :=
  stableDtLoop B s maxLevels 0 big

/-- `NoSubcycleSolver::AdvanceLevel(level, dt)`, /repo/include/fub/solver/NoSubcycleSolver.hpp:74-105. -/
def nscAdvanceLevel (B : LevelSys K S) : Nat → Nat → K → S → S × Option (StepErr K)
  | 0, _, _, s => (s, none)
  | fuel + 1, l, dt, s =>
    let s := B.pre l dt (0, 1) s
    let r := if B.levelExists s (l + 1) then
        nscAdvanceLevel B fuel (l + 1) dt (B.reset (l + 1) l s)
      else (s, none)
    andThen r fun s =>
    andThen (B.adv l dt (0, 1) s) fun s =>
    let s := if B.levelExists s (l + 1) then
        B.complete l dt (B.coarsen (l + 1) l (B.corr (l + 1) l dt s)) else s
    let s := B.copyBack l s
    let s := if l = 0 then B.fillSingle l s else B.fillTwo l (l - 1) s
    B.post l dt (0, 1) s

/-- The loop of `NoSubcycleSolver::ComputeStableDt()`, /repo/include/fub/solver/NoSubcycleSolver.hpp:56-66. -/
def nscStableDtLoop (B : LevelSys K S) (s : S) : Nat → Nat → K → K
  | 0, _, acc => acc
  | fuel + 1, l, acc =>
    if B.levelExists s l then nscStableDtLoop B s fuel (l + 1) (min acc (B.stableDt s l)) else acc

/-- `NoSubcycleSolver::ComputeStableDt()`. Serves the model of /repo/include/fub/solver/NoSubcycleSolver.hpp:56-66. -/
def nscComputeStableDt (B : LevelSys K S) (maxLevels : Nat) (big : K) (s : S) : K :=
  nscStableDtLoop B s maxLevels 0 big

end

end Fub
