import Verif.Model.LevelIntegrator

/-!
# Model of the memory of the second order cut-cell method

Source: `/repo/include/fub/AMReX/cutcell/MyFluxMethod.hpp`, `/repo/include/fub/HyperbolicMethod.hpp`, `/repo/src/AMReX/cutcell/IntegratorContext.cpp`,
`/repo/src/AMReX/multi_block/MultiBlockIntegratorContext.cpp`, `/repo/include/fub/AMReX/multi_block/MultiBlockIntegratorContext2.hpp`.

The adapter `MyFluxMethod` keeps gradients in one member for all levels; the context keeps the wall reference states and their gradients for each level. Both are computed in
`PreSplitStep` and read in `ComputeNumericFluxes`.

Simplifications: the data of a level (scratch), gradients and reference states are values of arbitrary types; each level has a patch with walls and the integration of its
reference states succeeds in every cut cell (`reference_stale` is about the other case). The flux registers are left out. Undefined behaviour is the value `none` of the state and is kept.
-/

namespace Fub

/-- The numerical operations and the configuration of a run with the second order cut-cell method. Serves the model of /repo/include/fub/AMReX/cutcell/MyFluxMethod.hpp:122-359. -/
structure GradOps (K S G R : Type) where
  /-- `AMREX_SPACEDIM` -/
  dim : Nat
  /-- number of elements of `LevelData::reference_gradients`, see `fubGradOps` -/
  slots : Nat
  /-- does the context pass `PreSplitStep` on to the flux method, see `passesPreSplit` -/
  forwards : Bool
  /-- number of MPI ranks minus one -/
  ranks : Nat
  /-- `ComputeGradients` for a level -/
  grad : Nat → S → G
  /-- `ComputeReferenceStates` for a level; the step size and the direction are not used -/
  walls : Nat → S → G → R
  /-- `ApplyBoundaryCondition(level, dir)` -/
  bc : Nat → Int → S → S
  /-- `ComputeStableDt(level, dir)` of a rank -/
  stable : Nat → S → Int → Nat → K
  /-- `ComputeNumericFluxes`, `UpdateConservatively` and `CompleteFromCons` -/
  advance : Nat → K → Int → G → R → S → S

/-- The data of the levels and what is remembered between the calls. `grads` is `gradients_` with the level whose boxes it has, `none` before its first definition;
`refs` is `none` for reference states that were allocated and never computed. Serves the model of /repo/include/fub/AMReX/cutcell/MyFluxMethod.hpp:92-95 and /repo/include/fub/AMReX/cutcell/IntegratorContext.hpp:314-316. -/
structure GradMem (S G R : Type) where
  /-- `GetScratch(level)` -/
  lev : Nat → S
  /-- `gradients_` -/
  grads : Option (Nat × G)
  /-- `GetReferenceStates(level)` and `GetReferenceGradients(level, dir)` -/
  refs : Nat → Option R

/-- The contexts a level integrator can use. Serves the model of /repo/src/AMReX/cutcell/IntegratorContext.cpp:795-800. -/
inductive GradContext where
  | single
  | multiBlock
  | multiBlock2
  deriving DecidableEq

/-- `PreSplitStep` of the contexts: the cut-cell context calls the flux method, the contexts of coupled blocks have an empty body.
/repo/src/AMReX/cutcell/IntegratorContext.cpp:795-800, /repo/src/AMReX/multi_block/MultiBlockIntegratorContext.cpp:213-215, /repo/include/fub/AMReX/multi_block/MultiBlockIntegratorContext2.hpp:144,
/repo/include/fub/HyperbolicMethod.hpp:299-303,357-362 -/
def passesPreSplit : GradContext → Bool
  | .single => true
  | .multiBlock => false
  | .multiBlock2 => false

section
variable {K S G R : Type}

/-- The configuration of the code: `reference_gradients` has `AMREX_SPACEDIM` elements. /repo/include/fub/AMReX/cutcell/IntegratorContext.hpp:316 -/
def fubGradOps (c : GradContext) (o : GradOps K S G R) : GradOps K S G R := { o with slots := o.dim, forwards := passesPreSplit c }

/-- `MyFluxMethod::PreSplitStep` through the context: gradients of this level always, reference states if the counter is divisible by the space dimension. The reference gradients
are fetched for the directions X, Y and Z, which needs three elements. /repo/include/fub/AMReX/cutcell/MyFluxMethod.hpp:122-174,176-209 -/
def gradPreSplit (o : GradOps K S G R) (level count : Nat) (m : GradMem S G R) : Option (GradMem S G R) :=
  if o.forwards then
    let g := o.grad level (m.lev level)
    if count % o.dim = 0 then
      if 3 ≤ o.slots then
        some { m with grads := some (level, g), refs := fun k => if k = level then some (o.walls level (m.lev level) g) else m.refs k }
      else none
    else some { m with grads := some (level, g) }
  else some m

/-- `MyFluxMethod::ComputeNumericFluxes` with the update that follows: undefined if the gradients do not belong to the level, if the reference states were never computed or if the third
reference gradient does not exist. /repo/include/fub/AMReX/cutcell/MyFluxMethod.hpp:235-332 -/
def gradFluxes (o : GradOps K S G R) (level : Nat) (dt : K) (dir : Int) (m : GradMem S G R) : Option (GradMem S G R) :=
  match m.grads, m.refs level with
  | some (l, g), some r =>
    if l = level ∧ 3 ≤ o.slots then
      some { m with lev := fun k => if k = level then o.advance level dt dir g r (m.lev level) else m.lev k }
    else none
  | _, _ => none

/-- The operations of the level integrator for the second order cut-cell method. Serves the model of /repo/include/fub/solver/DimensionalSplitLevelIntegrator.hpp:227-262. -/
def gradDirOps (o : GradOps K S G R) (big : K) (level : Nat) : DirOps K (Option (GradMem S G R)) where
  ranks := o.ranks
  applyBc := fun dir s => s.map fun m => { m with lev := fun k => if k = level then o.bc level dir (m.lev level) else m.lev k }
  preSplit := fun _ _ count s => s.bind (gradPreSplit o level count)
  localDt := fun s dir p => match s with
    | some m => o.stable level (m.lev level) dir p
    | none => big
  fluxes := fun dt dir s => s.bind (gradFluxes o level dt dir)
  update := fun _ _ s => s
  complete := fun _ s => s
  accumulate := fun _ _ s => s

end

end Fub
