import Verif.Model.GridOutput
import Mathlib.Algebra.Field.Basic
import Mathlib.Algebra.BigOperators.Group.Finset.Basic
import Mathlib.Data.Fintype.Pi
import Mathlib.Data.Finset.Lattice.Fold
import Mathlib.Data.Int.Interval

/-!
The data of the levels when the hierarchy is initialised or regridded. Sources: `/repo/src/AMReX/GriddingAlgorithm.cpp`, `/repo/src/AMReX/cutcell/GriddingAlgorithm.cpp`.

The grids of a level are the set of its cells, its data are a function of cell and component. Simplifications: exact numbers; cells in the ghost region are not part of the data; the new grids are an input (AMReX computes them from the tags). The AMReX functions are modelled by their documented results: `pc_interp` gives a fine cell the value of the coarse cell that contains it, `FillPatchTwoLevels` prefers data of the same level, `average_down` writes the mean value of the fine cells.
-/

namespace Fub

/-- The cells and the data of a `PatchLevel`. /repo/include/fub/AMReX/PatchHierarchy.hpp:142-150 -/
structure GridLevel (n : ℕ) (K : Type) where
  cells : Finset (Index n)
  val : Index n → ℕ → K

variable {n : ℕ} {K : Type}

/-- `FillMultiFabFromLevel` for a finer level: `FillPatchTwoLevels` with all components, one time per level and `pc_interp`. /repo/src/AMReX/GriddingAlgorithm.cpp:129-177, /repo/src/AMReX/cutcell/GriddingAlgorithm.cpp:143-167 -/
def fillFromLevels (r : Index n) (coarse fine : GridLevel n K) : Index n → ℕ → K :=
  fun i c => if i ∈ fine.cells then fine.val i c else coarse.val (coarsenIdx r i) c

/-- `RemakeLevel`: the new grids are filled from the old level and the coarser one. /repo/src/AMReX/GriddingAlgorithm.cpp:240-251 -/
def remakeLevel (r : Index n) (coarse old : GridLevel n K) (cells : Finset (Index n)) : GridLevel n K :=
  ⟨cells, fillFromLevels r coarse old⟩

/-- `InterpFromCoarseLevel` of the conservative components with the literal ratio 2. The other components of the new `MultiFab` are not initialised: `junk` is what the memory contains. /repo/src/AMReX/GriddingAlgorithm.cpp:208-229 -/
def interpCons (first size : ℕ) (coarse : GridLevel n K) (junk : Index n → ℕ → K) : Index n → ℕ → K :=
  fun i c => if first ≤ c ∧ c < first + size then coarse.val (coarsenIdx (fun _ => 2) i) c else junk i c

/-- `MakeNewLevelFromCoarse` for a level that does not exist yet. /repo/src/AMReX/GriddingAlgorithm.cpp:208-231 -/
def newLevelFromCoarse (first size : ℕ) (coarse : GridLevel n K) (cells : Finset (Index n)) (junk : Index n → ℕ → K) : GridLevel n K :=
  ⟨cells, interpCons first size coarse junk⟩

/-- `MakeNewLevelFromCoarse` for a level that already exists in the patch hierarchy: `ParallelCopy` of all components of the old level. /repo/src/AMReX/GriddingAlgorithm.cpp:232-237 -/
def newLevelOverOld (first size : ℕ) (coarse old : GridLevel n K) (cells : Finset (Index n)) (junk : Index n → ℕ → K) : GridLevel n K :=
  ⟨cells, fun i c => if i ∈ old.cells then old.val i c else interpCons first size coarse junk i c⟩

/-- What AMReX decides about a level in a regrid. Serves the model of /repo/src/AMReX/GriddingAlgorithm.cpp:86-93, 208-256. -/
inductive GridAct (n : ℕ) (K : Type) where
  /-- unchanged grids: no call -/
  | same
  /-- `RemakeLevel` -/
  | remake (cells : Finset (Index n))
  /-- `MakeNewLevelFromCoarse` -/
  | create (cells : Finset (Index n)) (junk : Index n → ℕ → K)
  /-- `ClearLevel` of this and all finer levels -/
  | clear

/-- The levels finer than `coarse` after `AmrCore::regrid`: the levels are treated from coarse to fine, so that a level sees the new data of the coarser one. /repo/src/AMReX/GriddingAlgorithm.cpp:86-93, 208-256 -/
def regridData (r : Index n) (first size : ℕ) : GridLevel n K → List (GridAct n K) → List (GridLevel n K) → List (GridLevel n K)
  | _, [], fs => fs
  | _, .same :: as, f :: fs => f :: regridData r first size f as fs
  | l, .remake cells :: as, f :: fs => remakeLevel r l f cells :: regridData r first size (remakeLevel r l f cells) as fs
  | l, .create cells junk :: as, [] => newLevelFromCoarse first size l cells junk :: regridData r first size (newLevelFromCoarse first size l cells junk) as []
  | l, .create cells junk :: as, f :: fs => newLevelOverOld first size l f cells junk :: regridData r first size (newLevelOverOld first size l f cells junk) as fs
  | _, .clear :: _, _ => []
  | _, _, [] => []

/-- The fine cells of a coarse cell. Serves the model of /repo/src/AMReX/GriddingAlgorithm.cpp:119-123. -/
def childCells (r I : Index n) : Finset (Index n) := Fintype.piFinset fun d => Finset.Ico (r d * I d) (r d * I d + r d)

/-- `average_down` of the conservative components. Called at /repo/src/AMReX/GriddingAlgorithm.cpp:119-123 -/
def averageDown [Field K] (r : Index n) (first size : ℕ) (fine coarse : GridLevel n K) : GridLevel n K :=
  ⟨coarse.cells, fun I c => if (first ≤ c ∧ c < first + size) ∧ childCells r I ⊆ fine.cells
    then (∑ i ∈ childCells r I, fine.val i c) / ((childCells r I).card : K) else coarse.val I c⟩

/-- The loop of `InitializeHierarchy` from the finest to the coarsest level, applied to the levels with initial data. /repo/src/AMReX/GriddingAlgorithm.cpp:112-127 -/
def initializeLevels [Field K] (r : Index n) (first size : ℕ) : List (GridLevel n K) → List (GridLevel n K)
  | [] => []
  | l :: fs => match initializeLevels r first size fs with
    | [] => [l]
    | f :: rest => averageDown r first size f l :: f :: rest

end Fub
