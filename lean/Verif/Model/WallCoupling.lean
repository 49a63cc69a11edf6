import Verif.Model.Subcycle
import Verif.Model.CutSweep

/-!
# Reference states of walls and the inflow from a tube through a wall

Sources: /repo/src/AMReX/multi_block/MultiBlockIntegratorContext2.cpp:211-299, /repo/src/AMReX/cutcell/IntegratorContext.cpp:470-505,801-831, /repo/include/fub/AMReX/cutcell/FluxMethod.hpp:108-134,
/repo/include/fub/cutcell_method/KbnStabilisation.hpp:187-271, /repo/include/fub/AMReX/multi_block/MultiBlockIntegratorContext2.hpp:236-262.

One plenum; every wall cell holds a reference state, a mirror state and a mask. The number of levels is fixed. The state of the gas is an abstract type `P`; everything the level integrator does with it is given by an arbitrary `LevelSys K P`.
The Riemann problems are given functions. Uninitialised entries are `none`.
-/

namespace Fub

/-- `reference_states`, `reference_mirror_states` and `reference_masks` of all levels. /repo/include/fub/AMReX/cutcell/IntegratorContext.hpp:315-318 -/
structure WallStore (R M : Type) where
  refs : ℕ → ℤ × ℤ → Option R
  mirror : ℕ → ℤ × ℤ → Option M
  mask : ℕ → ℤ × ℤ → Bool

/-- What the reference states are computed from: the solution of the Riemann problem of the state in a wall cell with its mirror image (`none` for cells without wall or without gas), the reference and mirror state from the tube, the state with all
components zero, and the cells that belong to a connection. /repo/include/fub/cutcell_method/KbnStabilisation.hpp:194-209, /repo/include/fub/AMReX/multi_block/MultiBlockIntegratorContext2.hpp:242-262 -/
structure WallPhysics (P R M : Type) where
  wall : P → ℕ → ℤ × ℤ → Option R
  tube : P → ℕ → ℤ × ℤ → R × M
  zero : M
  coupled : ℕ → ℤ × ℤ → Bool

section
variable {K P R M : Type}

/-- `FluxMethod::PreAdvanceHierarchy`: all levels. /repo/include/fub/AMReX/cutcell/FluxMethod.hpp:108-134 -/
def wallPreHierarchy (ph : WallPhysics P R M) (N : ℕ) (p : P) (s : WallStore R M) : WallStore R M :=
  { refs := fun l c => if l < N then (match ph.wall p l c with | some r => some r | none => s.refs l c) else s.refs l c
    mirror := fun l c => if l < N then some ph.zero else s.mirror l c
    mask := s.mask }

/-- `ResetHierarchyConfiguration(first)`: reference and mirror states are kept in the cells that existed before, masks are cleared. /repo/src/AMReX/cutcell/IntegratorContext.cpp:476-495 -/
def wallReset (first : ℕ) (keep : ℕ → ℤ × ℤ → Bool) (s : WallStore R M) : WallStore R M :=
  { refs := fun l c => if first ≤ l then (if keep l c then s.refs l c else none) else s.refs l c
    mirror := fun l c => if first ≤ l then (if keep l c then s.mirror l c else none) else s.mirror l c
    mask := fun l c => if first ≤ l then false else s.mask l c }

/-- The loop over the connections of the plenum for one level. /repo/src/AMReX/multi_block/MultiBlockIntegratorContext2.cpp:224-292 -/
def wallCouple (ph : WallPhysics P R M) (p : P) (l : ℕ) (s : WallStore R M) : WallStore R M :=
  { refs := fun k c => if k = l ∧ ph.coupled l c = true then some (ph.tube p l c).1 else s.refs k c
    mirror := fun k c => if k = l ∧ ph.coupled l c = true then some (ph.tube p l c).2 else s.mirror k c
    mask := fun k c => if k = l ∧ ph.coupled l c = true then true else s.mask k c }

/-- `PreAdvanceLevel(level)` of the coupled blocks; `regrid` is the first level that a regrid has changed, with the cells that are kept. /repo/src/AMReX/multi_block/MultiBlockIntegratorContext2.cpp:211-299, /repo/src/AMReX/cutcell/IntegratorContext.cpp:801-831 -/
def wallPre (ph : WallPhysics P R M) (N : ℕ) (regrid : P → ℕ → Option (ℕ × (ℕ → ℤ × ℤ → Bool))) (p : P) (l : ℕ) (s : WallStore R M) : WallStore R M :=
  let s := wallPreHierarchy ph N p s
  let s := match regrid p l with
    | some r => wallReset r.1 r.2 s
    | none => s
  wallCouple ph p l s

/-- One computation of fluxes: the level, the level and the state of the gas of the last `PreAdvanceLevel`, and the stored reference states. Serves the model of /repo/include/fub/AMReX/cutcell/IntegratorContext.hpp:315-318. -/
structure WallUse (P R M : Type) where
  level : ℕ
  preLevel : ℕ
  preState : P
  store : WallStore R M

/-- A run: the gas, the stored reference states, the last `PreAdvanceLevel` and the computations of fluxes so far. Serves the model of /repo/include/fub/solver/DimensionalSplitLevelIntegrator.hpp:166-195. -/
structure WallRun (P R M : Type) where
  gas : P
  store : WallStore R M
  preLevel : ℕ
  preState : P
  log : List (WallUse P R M)

/-- The level integrator of the coupled blocks with the reference states of the plenum. `base` says what happens to the gas. /repo/include/fub/solver/DimensionalSplitLevelIntegrator.hpp:166-195 -/
def wallSys (base : LevelSys K P) (ph : WallPhysics P R M) (N : ℕ) (regrid : P → ℕ → Option (ℕ × (ℕ → ℤ × ℤ → Bool))) : LevelSys K (WallRun P R M) where
  levelExists := fun _ l => decide (l < N)
  ratio := base.ratio
  stableDt := fun s l => base.stableDt s.gas l
  pre := fun l dt sub s => ⟨base.pre l dt sub s.gas, wallPre ph N regrid s.gas l s.store, l, s.gas, s.log⟩
  reset := fun f c s => { s with gas := base.reset f c s.gas }
  adv := fun l dt sub s => (⟨(base.adv l dt sub s.gas).1, s.store, s.preLevel, s.preState, ⟨l, s.preLevel, s.preState, s.store⟩ :: s.log⟩, (base.adv l dt sub s.gas).2)
  corr := fun f c dt s => { s with gas := base.corr f c dt s.gas }
  coarsen := fun f c s => { s with gas := base.coarsen f c s.gas }
  complete := fun l dt s => { s with gas := base.complete l dt s.gas }
  copyBack := fun l s => { s with gas := base.copyBack l s.gas }
  fillSingle := fun l s => { s with gas := base.fillSingle l s.gas }
  fillTwo := fun f c s => { s with gas := base.fillTwo f c s.gas }
  post := fun l dt sub s => ({ s with gas := (base.post l dt sub s.gas).1 }, (base.post l dt sub s.gas).2)
  cycles := fun s => base.cycles s.gas

/-- Which state is on the other side of the wall in the Riemann problem of `ComputeBoundaryFlux`: the mirror state if the cell is masked, the reflected state (`none`) otherwise. /repo/include/fub/cutcell_method/KbnStabilisation.hpp:222-235 -/
def wallOtherSide (s : WallStore R M) (l : ℕ) (c : ℤ × ℤ) : Option (Option M) := if s.mask l c then some (s.mirror l c) else none

end

/-- The cells of level `l` that are masked for a connection with a normal: those of the box of the connection whose wall has the normal (`ok`). The box is the same for all levels.
/repo/src/AMReX/multi_block/MultiBlockIntegratorContext2.cpp:264-280, /repo/src/AMReX/multi_block/MultiBlockBoundary2.cpp:499-501 -/
def coupledCells (box : Rect) (ok : ℕ → ℤ × ℤ → Bool) (l : ℕ) (c : ℤ × ℤ) : Bool := box.has c && ok l c

end Fub
