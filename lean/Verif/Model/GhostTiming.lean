import Verif.Model.Subcycle

/-!
# Model of the data a level step reads: cells, ghost cells and wall reference states

Source: `/repo/include/fub/solver/DimensionalSplitLevelIntegrator.hpp:167-194`, `/repo/src/AMReX/cutcell/IntegratorContext.cpp:424-660,802-857`,
`/repo/src/AMReX/IntegratorContext.cpp:380-450,601-679`, `/repo/include/fub/AMReX/cutcell/FluxMethod.hpp:108-133`,
`/repo/include/fub/cutcell_method/KbnStabilisation.hpp:188-210`. The order of the operations is that of
`/repo/include/fub/solver/SubcycleFineFirstSolver.hpp:114-193` and `/repo/include/fub/solver/NoSubcycleSolver.hpp:74-105` (`Model/Subcycle.lean`).

Simplifications: the cells of a level are functions on an index type `I`, its ghost cells on an index type `J`, and a state is a value of an
abstract type `C`. What `FillPatchSingleLevel` and `FillPatchTwoLevels` put into the ghost cells is an arbitrary function of the cells
of the level and of the next coarser level; boundary conditions with a memory or an explicit time dependence are not covered. The numerical method
of one level (all split steps, with the flux registers `A` it writes) is an arbitrary function of the cells, the ghost cells and the reference states;
it may leave anything in the ghost cells. Times are exact. What a regrid does is taken from an arbitrary script. The copy of the cells
in the patch hierarchy is not part of the state. Without embedded boundaries take `cut` to be false everywhere.
-/

namespace Fub

/-- What the integrator context holds for one level: `LevelData`, /repo/include/fub/AMReX/cutcell/IntegratorContext.hpp:296-345. -/
structure GLevel (K I J C : Type) where
  /-- `scratch`, cells of the level -/
  data : I → C
  /-- `scratch`, ghost cells -/
  ghost : J → C
  /-- `reference_states`, cells of the level -/
  ref : I → C
  /-- `reference_states`, ghost cells -/
  gref : J → C
  /-- `time_point` -/
  time : K
  /-- `regrid_time_point` -/
  regridTime : K

/-- One regrid that changes something: the first `skip` finer levels stay as they are, from then on there are `count` levels with the given new cells; the contents of
their ghost cells and reference states is whatever `ResetHierarchyConfiguration` left there, /repo/src/AMReX/cutcell/IntegratorContext.cpp:454-552. -/
structure GRegrid (I J C : Type) where
  skip : Nat
  count : Nat
  data : Nat → I → C
  ghost : Nat → J → C
  ref : Nat → I → C
  gref : Nat → J → C

/-- The state of the solver: the levels `0, …, n - 1`, the cycle counter of level 0, the flux registers and the outcome of the future regrids. Serves the model of /repo/include/fub/AMReX/cutcell/IntegratorContext.hpp:296-360. -/
structure GRun (K I J C A : Type) where
  lev : Nat → GLevel K I J C
  n : Nat
  cycles : Int
  aux : A
  script : List (Option (GRegrid I J C))

/-- The parts of the program that are not modelled further. Serves the model of /repo/include/fub/solver/DimensionalSplitLevelIntegrator.hpp:167-277. -/
structure GOps (K I J C A : Type) where
  /-- `GetMaxNumberOfLevels()` -/
  maxLevels : Nat
  /-- `GetRatioToCoarserLevel(level).max()` -/
  ratio : Nat → Nat
  /-- ghost cells of level 0 by `FillGhostLayerSingleLevel(0)` -/
  fill0 : (I → C) → J → C
  /-- ghost cells by `FillGhostLayerTwoLevels(level, level - 1)` from the cells of the coarser level and of the level -/
  fill : Nat → (I → C) → (I → C) → J → C
  /-- `IsCutCell(geom, cell)` on a patch with an embedded boundary -/
  cut : Nat → I → Bool
  /-- the same in a ghost cell -/
  gcut : Nat → J → Bool
  /-- `state.density > 0` -/
  gas : C → Bool
  /-- solution of the Riemann problem at the wall of the cell -/
  wall : Nat → I → C → C
  /-- the same in a ghost cell -/
  gwall : Nat → J → C → C
  /-- `AdvanceLevelNonRecursively(level, dt)` -/
  step : Nat → K → (I → C) → (J → C) → (I → C) → (J → C) → A → (I → C) × (J → C) × A × Option (StepErr K)
  /-- `ResetCoarseFineFluxes(fine, fine - 1)` -/
  clear : Nat → A → A
  /-- `ApplyFluxCorrection(fine, fine - 1, dt)` -/
  corr : Nat → K → A → (I → C) → I → C
  /-- `CoarsenConservatively(fine, fine - 1)` -/
  coarsen : Nat → (I → C) → (I → C) → I → C
  /-- `CompleteFromCons(level, dt)` -/
  complete : Nat → (I → C) → (J → C) → (I → C) × (J → C)

section
variable {K I J C A : Type}

/-- `KbnCutCellMethod::PreAdvanceHierarchy(references, states, geom)`, /repo/include/fub/cutcell_method/KbnStabilisation.hpp:188-210: the
reference state of a cut cell with gas is computed from the state of this cell, all other cells keep what they have. -/
def refreshRefs {X : Type} (cut : X → Bool) (gas : C → Bool) (wall : X → C → C) (d r : X → C) : X → C :=
  fun x => if cut x && gas (d x) then wall x (d x) else r x

/-- One level in `FluxMethod::PreAdvanceHierarchy(context)`, /repo/include/fub/AMReX/cutcell/FluxMethod.hpp:111-131: cells and ghost cells (`growntilebox`). -/
def GOps.refreshLevel (o : GOps K I J C A) (l : Nat) (x : GLevel K I J C) : GLevel K I J C :=
  { x with
    ref := refreshRefs (o.cut l) o.gas (o.wall l) x.data x.ref
    gref := refreshRefs (o.gcut l) o.gas (o.gwall l) x.ghost x.gref }

/-- `FluxMethod::PreAdvanceHierarchy(context)`, /repo/include/fub/AMReX/cutcell/FluxMethod.hpp:108-133: all levels of the hierarchy. -/
def GOps.refreshAll (o : GOps K I J C A) (s : GRun K I J C A) : GRun K I J C A :=
  { s with
    lev := fun k => if k < s.n then o.refreshLevel k (s.lev k) else s.lev k }

/-- The contents `FillGhostLayerSingleLevel(0)` or `FillGhostLayerTwoLevels(l, l - 1)` gives the ghost cells of level `l`,
/repo/src/AMReX/cutcell/IntegratorContext.cpp:596-660. -/
def GOps.fillValue (o : GOps K I J C A) (s : GRun K I J C A) : Nat → J → C
  | 0 => o.fill0 (s.lev 0).data
  | l + 1 => o.fill (l + 1) (s.lev l).data (s.lev (l + 1)).data

/-- `FillGhostLayerSingleLevel(0)` or `FillGhostLayerTwoLevels(l, l - 1)`, /repo/src/AMReX/cutcell/IntegratorContext.cpp:596-660. -/
def GOps.fillAt (o : GOps K I J C A) (l : Nat) (s : GRun K I J C A) : GRun K I J C A :=
  { s with
    lev := fun k => if k = l then { s.lev l with ghost := o.fillValue s l } else s.lev k }

/-- The loop `for (ilvl = max(1, regrid_level); LevelExists(ilvl); ++ilvl) FillGhostLayerTwoLevels(ilvl, ilvl - 1);`,
/repo/include/fub/solver/DimensionalSplitLevelIntegrator.hpp:176-179, for `m` levels beginning with `l`. -/
def GOps.fillFrom (o : GOps K I J C A) : Nat → Nat → GRun K I J C A → GRun K I J C A
  | 0, _, s => s
  | m + 1, l, s => o.fillFrom m (l + 1) (o.fillAt l s)

/-- The regrid in `IntegratorContext::PreAdvanceLevel`, /repo/src/AMReX/cutcell/IntegratorContext.cpp:814-829, with
`ResetHierarchyConfiguration(level_which_changed)`, lines 454-565. Returns the new state and the number of the first changed level, or the
maximal number of levels if nothing changed. A changed level begins at the time of level `l`; `regrid_time_point` of all levels from `l` on is set. -/
def GOps.regrid [DecidableEq K] (o : GOps K I J C A) (l : Nat) (sub : Nat × Nat) (s : GRun K I J C A) : GRun K I J C A × Nat :=
  if sub.1 = 0 ∧ (s.lev l).regridTime ≠ (s.lev l).time ∧ l + 1 < o.maxLevels then
    match s.script with
    | [] => (s, o.maxLevels)
    | none :: rest =>
      ({ s with
         script := rest
         lev := fun k => if l ≤ k then { s.lev k with regridTime := (s.lev k).time } else s.lev k }, o.maxLevels)
    | some g :: rest =>
      let first := min (l + 1 + g.skip) s.n
      if first < o.maxLevels then
        ({ s with
           script := rest
           n := min o.maxLevels (first + g.count)
           lev := fun k =>
             if first ≤ k then ⟨g.data k, g.ghost k, g.ref k, g.gref k, (s.lev l).time, (s.lev l).time⟩
             else if l ≤ k then { s.lev k with regridTime := (s.lev k).time } else s.lev k }, first)
      else (s, o.maxLevels)
  else (s, o.maxLevels)

/-- `DimensionalSplitLevelIntegrator::PreAdvanceLevel(level, dt, subcycle)`, /repo/include/fub/solver/DimensionalSplitLevelIntegrator.hpp:168-194, with
`IntegratorContext::PreAdvanceLevel`, /repo/src/AMReX/cutcell/IntegratorContext.cpp:802-830: first the reference states of all levels, then the regrid, then the
ghost cells of the changed levels, then the ghost cells of the level unless it is at the time of the coarsest level. -/
def GOps.pre [DecidableEq K] (o : GOps K I J C A) (l : Nat) (sub : Nat × Nat) (s : GRun K I J C A) : GRun K I J C A :=
  let r := o.regrid l sub (o.refreshAll s)
  let s := if r.2 = 0 then o.fillAt 0 r.1 else r.1
  let s := o.fillFrom (s.n - max 1 r.2) (max 1 r.2) s
  if l < r.2 ∧ (s.lev l).time ≠ (s.lev 0).time then o.fillAt l s else s

/-- `AdvanceLevelNonRecursively(level, dt, subcycle)`, /repo/include/fub/solver/DimensionalSplitLevelIntegrator.hpp:221-277. -/
def GOps.adv (o : GOps K I J C A) (l : Nat) (dt : K) (s : GRun K I J C A) : GRun K I J C A × Option (StepErr K) :=
  let x := s.lev l
  let r := o.step l dt x.data x.ghost x.ref x.gref s.aux
  ({ s with
     aux := r.2.2.1
     lev := fun k => if k = l then { x with data := r.1, ghost := r.2.1 } else s.lev k }, r.2.2.2)

/-- Replace the cells of level `l`. Serves the model of /repo/include/fub/solver/SubcycleFineFirstSolver.hpp:149-165. -/
def GRun.setData (s : GRun K I J C A) (l : Nat) (d : I → C) : GRun K I J C A :=
  { s with
    lev := fun k => if k = l then { s.lev l with data := d } else s.lev k }

/-- `CompleteFromCons(level, dt)`, /repo/src/AMReX/cutcell/IntegratorContext.cpp:772-781. -/
def GOps.completeAt (o : GOps K I J C A) (l : Nat) (s : GRun K I J C A) : GRun K I J C A :=
  let r := o.complete l (s.lev l).data (s.lev l).ghost
  { s with
    lev := fun k => if k = l then { s.lev l with data := r.1, ghost := r.2 } else s.lev k }

/-- `PostAdvanceLevel(level, dt, subcycle)`, /repo/src/AMReX/cutcell/IntegratorContext.cpp:831-857, clocks only. -/
def GRun.post [Add K] (s : GRun K I J C A) (l : Nat) (dt : K) : GRun K I J C A :=
  { s with
    lev := fun k => if k = l then { s.lev l with time := (s.lev l).time + dt } else s.lev k
    cycles := if l = 0 then s.cycles + 1 else s.cycles }

/-- The level integrator as seen by the subcycling solvers, /repo/include/fub/solver/DimensionalSplitLevelIntegrator.hpp:86-277. -/
def ghostSys [Field K] [LinearOrder K] (o : GOps K I J C A) : LevelSys K (GRun K I J C A) where
  levelExists := fun s l => decide (l < s.n)
  ratio := o.ratio
  stableDt := fun _ _ => 0
  pre := fun l _ sub s => o.pre l sub s
  reset := fun fine _ s => { s with aux := o.clear fine s.aux }
  adv := fun l dt _ s => o.adv l dt s
  corr := fun fine coarse dt s => s.setData coarse (o.corr fine dt s.aux (s.lev coarse).data)
  coarsen := fun fine coarse s => s.setData coarse (o.coarsen fine (s.lev fine).data (s.lev coarse).data)
  complete := fun l _ s => o.completeAt l s
  copyBack := fun _ s => s
  fillSingle := fun _ s => o.fillAt 0 s
  fillTwo := fun fine _ s => o.fillAt fine s
  post := fun l dt _ s => (s.post l dt, none)
  cycles := fun s => s.cycles

end

end Fub
