import Verif.Model.RegridData
import Mathlib.Algebra.Order.Field.Basic

/-!
The data of the levels on meshes with embedded walls: averaging, regridding, the geometry of the levels and the removal of grids without gas.
Sources: `/repo/src/AMReX/cutcell/GriddingAlgorithm.cpp`, `/repo/src/AMReX/cutcell/IntegratorContext.cpp`, `/repo/include/fub/AMReX/cutcell/IndexSpace.hpp`.

The volume fractions of a level are a function of the cell, `1` for regular and `0` for covered cells. The AMReX functions are modelled by their source or their documented results: `EB_average_down` weights the fine cells with their volume fractions if the fine data were allocated with a factory for embedded boundaries and falls back to `average_down` if not; a coarse cell without open fine cells gets the value of its first fine cell. Simplifications: exact numbers, so the test `cv > 1e-30` is `cv ≠ 0`; no ghost cells.
-/

namespace Fub
variable {n : ℕ} {K : Type}

/-- The mean value of `EB_average_down` with the weights `w` over the fine cells of `I`. Called at /repo/src/AMReX/cutcell/GriddingAlgorithm.cpp:127-129 and /repo/src/AMReX/cutcell/IntegratorContext.cpp:675-676. -/
def ebMean [Field K] [DecidableEq K] (r : Index n) (w : Index n → K) (u : Index n → K) (I : Index n) : K :=
  if ∑ i ∈ childCells r I, w i = 0 then u (fun d => r d * I d) else (∑ i ∈ childCells r I, w i * u i) / ∑ i ∈ childCells r I, w i

/-- `EB_average_down(fine, coarse, first, size, 2)`: `factory` says whether the fine data have a factory for embedded boundaries, `al` are the volume fractions of the fine level. Called at /repo/src/AMReX/cutcell/GriddingAlgorithm.cpp:127-129 and /repo/src/AMReX/cutcell/IntegratorContext.cpp:675-676. -/
def ebAverageDown [Field K] [DecidableEq K] (first size : ℕ) (factory : Bool) (al : Index n → K) (fine coarse : GridLevel n K) : GridLevel n K :=
  ⟨coarse.cells, fun I c => if (first ≤ c ∧ c < first + size) ∧ childCells (fun _ => 2) I ⊆ fine.cells
    then ebMean (fun _ => 2) (if factory then al else fun _ => 1) (fun i => fine.val i c) I else coarse.val I c⟩

/-- `IntegratorContext::CoarsenConservatively`: `scratch` was defined without a factory, `data.scratch.define(ba, dm, n_components, options_.scratch_gcw)`. /repo/src/AMReX/cutcell/IntegratorContext.cpp:660-677, 518 -/
def ebCoarsen [Field K] [DecidableEq K] (first size : ℕ) (al : Index n → K) (fine coarse : GridLevel n K) : GridLevel n K :=
  ebAverageDown first size false al fine coarse

/-- `GriddingAlgorithm::InitializeHierarchy` applied to the levels with initial data; the data of a `PatchLevel` have the factory. `al k` are the volume fractions of level `k`; the list starts with level `k`. /repo/src/AMReX/cutcell/GriddingAlgorithm.cpp:118-131, /repo/src/AMReX/cutcell/PatchHierarchy.cpp:380-387 -/
def ebInitialize [Field K] [DecidableEq K] (first size : ℕ) (al : ℕ → Index n → K) : ℕ → List (GridLevel n K) → List (GridLevel n K)
  | _, [] => []
  | k, l :: fs => match ebInitialize first size al (k + 1) fs with
    | [] => [l]
    | f :: rest => ebAverageDown first size true (al (k + 1)) f l :: f :: rest

/-- The levels finer than `coarse` after `AmrCore::regrid` with the callbacks of the cut-cell gridding algorithm. `RemakeLevel` fills from the old level and the coarser one with the ratio 2, `MakeNewLevelFromCoarse` interpolates the conservative components with the ratio 2 and never looks at an old level. /repo/src/AMReX/cutcell/GriddingAlgorithm.cpp:94-116, 242-306 -/
def ebRegrid (first size : ℕ) : GridLevel n K → List (GridAct n K) → List (GridLevel n K) → List (GridLevel n K)
  | _, [], fs => fs
  | _, .same :: as, f :: fs => f :: ebRegrid first size f as fs
  | l, .remake cells :: as, f :: fs => remakeLevel (fun _ => 2) l f cells :: ebRegrid first size (remakeLevel (fun _ => 2) l f cells) as fs
  | l, .create cells junk :: as, fs => newLevelFromCoarse first size l cells junk :: ebRegrid first size (newLevelFromCoarse first size l cells junk) as fs.tail
  | _, .clear :: _, _ => []
  | _, _, [] => []

/-- The height of the wall above the bottom of a cell in units of the cell, limited to the cell. Serves the model of /repo/include/fub/AMReX/cutcell/IndexSpace.hpp:46-64. -/
def wallPart [Field K] [LinearOrder K] (h dx : K) (j : ℤ) : K := max 0 (min 1 (h / dx - j))

/-- The volume fraction of the cell `(i, j)` of a mesh of size `dx` for gas below a wall at the height `h x`: `EB2::Build` of AMReX cuts the vertical faces at the wall and joins the two points by a straight line. If the line leaves the cell through its top or bottom the value is only approximate. Serves the model of /repo/include/fub/AMReX/cutcell/IndexSpace.hpp:46-64. -/
def wallFrac [Field K] [LinearOrder K] (h : K → K) (dx : K) (i : Index 2) : K :=
  (wallPart (h (i 0 * dx)) dx (i 1) + wallPart (h ((i 0 + 1) * dx)) dx (i 1)) / 2

/-- `MakeIndexSpaces`: the geometry of every level is built on its own, on a mesh refined by two. /repo/include/fub/AMReX/cutcell/IndexSpace.hpp:46-64 -/
def indexSpaces [Field K] [LinearOrder K] (h : K → K) (dx : K) (level : ℕ) : Index 2 → K := wallFrac h (dx / 2 ^ level)

/-- A box of the coarsest level: its cells and the rank that owns it. Serves the model of /repo/src/AMReX/cutcell/GriddingAlgorithm.cpp:312-333. -/
structure BaseBox (n : ℕ) where
  cells : Finset (Index n)
  owner : ℕ

/-- The flag `FabType::covered` of a box: all its cells are covered. /repo/src/AMReX/cutcell/GriddingAlgorithm.cpp:322-329 -/
def boxCovered [Field K] [DecidableEq K] (al : Index n → K) (b : BaseBox n) : Bool := decide (∀ i ∈ b.cells, al i = 0)

/-- `PostProcessBaseGrids`: every rank collects its boxes that are not covered, `AllGatherBoxes` joins the lists of all ranks. /repo/src/AMReX/cutcell/GriddingAlgorithm.cpp:312-333 -/
def postProcessBaseGrids [Field K] [DecidableEq K] (removeCovered : Bool) (ranks : ℕ) (al : Index n → K) (ba : List (BaseBox n)) : List (BaseBox n) :=
  if removeCovered then (List.range ranks).flatMap fun p => (ba.filter fun b => decide (b.owner = p)).filter fun b => !boxCovered al b else ba

end Fub
