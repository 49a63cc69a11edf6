import Verif.Model.Subcycle

/-!
# Model of the dimensionally split level integrator

Source: `/repo/include/fub/solver/DimensionalSplitLevelIntegrator.hpp`.

Simplifications: exact numbers; the integrator context is an abstract state `S` (data of the level on all MPI ranks) with
arbitrary operations; `MinAll` is the minimum over the ranks `0, ..., ranks`.
-/

namespace Fub

/-- Operations of the integrator context used for one split step on one level,
/repo/include/fub/solver/DimensionalSplitLevelIntegrator.hpp:227-262. -/
structure DirOps (K S : Type) where
  /-- number of MPI ranks minus one -/
  ranks : Nat
  /-- `ApplyBoundaryCondition(level, dir)` -/
  applyBc : Int → S → S
  /-- `PreSplitStep(level, dt, dir, {shared_counter, 0})` -/
  preSplit : K → Int → Nat → S → S
  /-- `ComputeStableDt(level, dir)` on each rank -/
  localDt : S → Int → Nat → K
  /-- `ComputeNumericFluxes(level, dt, dir)` -/
  fluxes : K → Int → S → S
  /-- `UpdateConservatively(level, dt, dir)` -/
  update : K → Int → S → S
  /-- `CompleteFromCons(level, dt)` -/
  complete : K → S → S
  /-- `AccumulateCoarseFineFluxes(level, scale, dir)` -/
  accumulate : K → Int → S → S

/-- The context together with the counters captured by the closures,
/repo/include/fub/solver/DimensionalSplitLevelIntegrator.hpp:226-236. -/
structure SplitState (S : Type) where
  /-- integrator context -/
  ctx : S
  /-- `count_split_steps` of the closure of each direction -/
  count : Int → Nat
  /-- `shared_counter` -/
  shared : Nat

section
variable {K S : Type} [Field K] [LinearOrder K]

/-- `MinAll(comm, x)`, /repo/include/fub/ext/Mpi.hpp:31; minimum of `f 0, ..., f n`. -/
def minAll (f : Nat → K) : Nat → K
  | 0 => f 0
  | n + 1 => min (minAll f n) (f (n + 1))

/-- The closure `AdvanceLevel_Split(dir)`, /repo/include/fub/solver/DimensionalSplitLevelIntegrator.hpp:227-263. -/
def splitOp (o : DirOps K S) (level : Nat) (dir : Int) : Op K (SplitState S) (StepErr K) := fun dt st =>
  let s := if st.count dir > 0 then o.applyBc dir st.ctx else st.ctx
  let count := fun d => if d = dir then st.count dir + 1 else st.count d
  let s := o.preSplit dt dir st.shared s
  let levelDt := minAll (o.localDt s dir) o.ranks
  if levelDt < dt then
    (⟨s, count, st.shared + 1⟩, some { dt := levelDt, level := level })
  else
    (⟨o.accumulate dt dir (o.complete dt (o.update dt dir (o.fluxes dt dir s))), count, st.shared + 1⟩, none)

/-- `DimensionalSplitLevelIntegrator::AdvanceLevelNonRecursively(level, dt, subcycle)`,
/repo/include/fub/solver/DimensionalSplitLevelIntegrator.hpp:221-276; `M` is the splitting method, `cycle` is `GetCycles(0)`,
`sub` is `subcycle.first`. -/
def advanceNonRecursively (o : DirOps K S) (M : Split2 K (SplitState S) (StepErr K)) (rank level : Nat)
    (cycle sub : Int) (dt : K) (s : S) : S × Option (StepErr K) :=
  let r := advanceRec M ((makeSplitDirections rank cycle sub).map (splitOp o level)) dt ⟨s, fun _ => 0, 0⟩
  (r.1.ctx, r.2)

/-- `DimensionalSplitLevelIntegrator::ComputeStableDt(level)`,
/repo/include/fub/solver/DimensionalSplitLevelIntegrator.hpp:204-219, on one rank `p`. -/
def levelStableDt (o : DirOps K S) (rank : Nat) (big : K) (p : Nat) (s : S) : K :=
  (List.range rank).foldl (fun acc (d : Nat) => min acc (o.localDt s (d : Int) p)) big

/-- `SplitSystemSourceLevelIntegrator::AdvanceLevelNonRecursively`,
/repo/include/fub/solver/SplitSystemSourceLevelIntegrator.hpp:200-214: source first, then system. -/
def advanceSystemSource {S E : Type} (M : Split2 K S E) (source system : Op K S E) (dt : K) (s : S) : S × Option E :=
  M dt source system s

/-- `SplitSystemSourceLevelIntegrator::ComputeStableDt(level)`,
/repo/include/fub/solver/SplitSystemSourceLevelIntegrator.hpp:161-174. -/
def systemSourceStableDt (system source : K) : K := min system source

end

end Fub
