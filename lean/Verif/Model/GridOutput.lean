import Verif.Model.IndexBox
import Mathlib.Algebra.BigOperators.Group.List.Basic
import Mathlib.Algebra.Order.Floor.Ring
import Mathlib.Algebra.Order.Field.Basic

/-!
Composition of the levels of a hierarchy on its finest grid for HDF5 output, with and without embedded boundaries, and the states gathered at probe locations.

Values are elements of an ordered field instead of `double`; a `MultiFab` is the list of its patches with the rank that owns them; `MPI_Reduce` and `MPI_Allreduce`
with `MPI_SUM` are sums over all ranks. The data on a patch level has no ghost cells (/repo/src/AMReX/PatchHierarchy.cpp:111-124), so the box of a fab is its tile box.
The component `val c` of a patch of a cut-cell hierarchy with `c = ncomp` is the volume fraction of the embedded boundary.
-/

namespace Fub

/-- `amrex::Box` with cell indices; both ends are included. Serves the model of /repo/src/AMReX/output/WriteHdf5Impl.cpp:121. -/
@[ext] structure ABox (n : ℕ) where
  /-- `smallEnd()` -/
  lo : Index n
  /-- `bigEnd()` -/
  hi : Index n
deriving DecidableEq

/-- `Box::contains(IntVect)`. Serves the model of /repo/src/AMReX/output/WriteHdf5Impl.cpp:50-55. -/
def ABox.Has {n : ℕ} (b : ABox n) (i : Index n) : Prop := ∀ d, b.lo d ≤ i d ∧ i d ≤ b.hi d

instance {n : ℕ} (b : ABox n) (i : Index n) : Decidable (b.Has i) := by unfold ABox.Has; infer_instance

/-- `IntVect::coarsen(ratio)`, which rounds to minus infinity. Used at /repo/src/AMReX/output/WriteHdf5Impl.cpp:67. -/
def coarsenIdx {n : ℕ} (r i : Index n) : Index n := fun d => i d / r d

/-- `Box::coarsen(ratio)` for boxes of cells. Used at /repo/src/AMReX/output/WriteHdf5Impl.cpp:121. -/
def ABox.coarsen {n : ℕ} (b : ABox n) (r : Index n) : ABox n := ⟨coarsenIdx r b.lo, coarsenIdx r b.hi⟩

/-- The boxes of the levels for the output restricted to `finest`; `ratios` lists `GetRatioToCoarserLevel(level)` from the finest level down to level one.
/repo/src/AMReX/output/WriteHdf5Impl.cpp:115-124 (cut cells: /repo/src/AMReX/cutcell/output/WriteHdf5Impl.cpp:173-182). The result starts with level zero. -/
def outputBoxes {n : ℕ} (finest : ABox n) (ratios : List (Index n)) : List (ABox n) :=
  (ratios.foldl (fun (acc : List (ABox n) × ABox n) r => (acc.1 ++ [acc.2.coarsen r], acc.2.coarsen r)) ([finest], finest)).1.reverse

/-- One patch of a `MultiFab`: owner, box and data. Serves the model of /repo/src/AMReX/output/WriteHdf5Impl.cpp:50-55. -/
structure OutPatch (n : ℕ) (K : Type) where
  /-- rank that owns the patch -/
  owner : ℕ
  /-- `mfi.tilebox()` -/
  box : ABox n
  /-- value of a component in a cell -/
  val : ℕ → Index n → K

/-- What the output reads of one level: the patches, the ratio to the coarser level, lower corner and cell size of its `Geometry`. Serves the model of /repo/src/AMReX/output/WriteHdf5Impl.cpp:45-81. -/
structure OutLevel (n : ℕ) (K : Type) where
  /-- patches of all ranks, in the order of the box array -/
  patches : List (OutPatch n K)
  /-- `GetRatioToCoarserLevel(level)` -/
  ratio : Index n
  /-- `ProbLo()` -/
  lo : Fin n → K
  /-- `CellSize()` -/
  dx : Fin n → K

section
variable {n : ℕ} {K : Type} [Field K] [LinearOrder K]

/-- `local_fab` of one rank: the patches of this rank are copied over the initial values.
/repo/src/AMReX/output/WriteHdf5Impl.cpp:50-55 and 132-138 -/
def localFab (ps : List (OutPatch n K)) (rank : ℕ) (init : ℕ → Index n → K) : ℕ → Index n → K :=
  (ps.filter fun p => p.owner = rank).foldl (fun f p c i => if p.box.Has i then p.val c i else f c i) init

/-- `MPI_Reduce` with `MPI_SUM`. /repo/src/AMReX/output/WriteHdf5Impl.cpp:58-61 -/
def reduceSum (ranks : ℕ) (f : ℕ → K) : K := ((List.range ranks).map f).sum

/-- The loop over the cells for one component: cells in which component zero vanishes take the value of the coarser level.
/repo/src/AMReX/output/WriteHdf5Impl.cpp:64-71 for `comp > 0`, lines 73-80 for `comp = 0` -/
def fillComp (r : Index n) (coarse fab : ℕ → Index n → K) (comp : ℕ) : ℕ → Index n → K :=
  fun c i => if c = comp ∧ fab 0 i = 0 then coarse c (coarsenIdx r i) else fab c i

/-- One level of `WriteHdf5UnRestricted` and `WriteHdf5RestrictedToBox`: gather and fill, component zero last. `coarse` is the result for the coarser level.
/repo/src/AMReX/output/WriteHdf5Impl.cpp:45-81 and 128-164 -/
def composeStep (ranks ncomp : ℕ) (coarse : Option (ℕ → Index n → K)) (l : OutLevel n K) : ℕ → Index n → K :=
  let fab : ℕ → Index n → K := fun c i => reduceSum ranks fun rank => localFab l.patches rank (fun _ _ => 0) c i
  match coarse with
  | none => fab
  | some g => fillComp l.ratio g ((List.range' 1 (ncomp - 1)).foldl (fillComp l.ratio g) fab) 0

/-- The fab that is passed to `WriteToHDF5`; the levels are listed from the coarsest to the finest.
/repo/src/AMReX/output/WriteHdf5Impl.cpp:27-93 and 95-177; the same code writes tubes and slices at /repo/src/AMReX/PatchHierarchy.cpp:751-806 and
/repo/src/AMReX/cutcell/PatchHierarchy.cpp:916-1007 -/
def composeLevels (ranks ncomp : ℕ) (ls : List (OutLevel n K)) : Option (ℕ → Index n → K) :=
  ls.foldl (fun g l => some (composeStep ranks ncomp g l)) none

/-- The loop over the cells for one component with embedded boundaries: only cells with a positive volume fraction are filled.
/repo/src/AMReX/cutcell/output/WriteHdf5Impl.cpp:121-130 and 131-138 -/
def fillCompCut (ncomp : ℕ) (r : Index n) (coarse fab : ℕ → Index n → K) (comp : ℕ) : ℕ → Index n → K :=
  fun c i => if c = comp ∧ fab 0 i = 0 ∧ 0 < fab ncomp i then coarse c (coarsenIdx r i) else fab c i

/-- One level of the output with embedded boundaries. `interp` is true for `WriteHdf5UnRestricted`: rank zero initialises the volume fractions with those of the coarser
level (lines 100-107); `WriteHdf5RestrictedToBox` does not.
/repo/src/AMReX/cutcell/output/WriteHdf5Impl.cpp:90-139 and 186-229 -/
def composeCutStep (interp : Bool) (ranks ncomp : ℕ) (coarse : Option (ℕ → Index n → K)) (l : OutLevel n K) : ℕ → Index n → K :=
  let init : ℕ → ℕ → Index n → K := fun rank c i =>
    match coarse with
    | none => 0
    | some g => if interp ∧ rank = 0 ∧ c = ncomp then g c (coarsenIdx l.ratio i) else 0
  let fab : ℕ → Index n → K := fun c i => reduceSum ranks fun rank => localFab l.patches rank (init rank) c i
  match coarse with
  | none => fab
  | some g => fillCompCut ncomp l.ratio g ((List.range' 1 (ncomp - 1)).foldl (fillCompCut ncomp l.ratio g) fab) 0

/-- The fab with `ncomp + 1` components that is passed to `WriteToHDF5`. /repo/src/AMReX/cutcell/output/WriteHdf5Impl.cpp:72-151 and 153-242 -/
def composeCutLevels (interp : Bool) (ranks ncomp : ℕ) (ls : List (OutLevel n K)) : Option (ℕ → Index n → K) :=
  ls.foldl (fun g l => some (composeCutStep interp ranks ncomp g l)) none

/-- The cells of a box as a half open index box. Serves the model of /repo/src/AMReX/PatchHierarchy.cpp:702-725. -/
def ABox.toIndexBox (b : ABox n) : IndexBox n := ⟨b.lo, fun d => b.hi d + 1⟩

/-- `LoNode(iv) <= x < HiNode(iv)` in every direction. /repo/src/AMReX/PatchHierarchy.cpp:708-716 -/
def inCell (l : OutLevel n K) (iv : Index n) (x : Fin n → K) : Prop :=
  ∀ d, l.lo d + (iv d : K) * l.dx d ≤ x d ∧ x d < l.lo d + ((iv d : K) + 1) * l.dx d

instance (l : OutLevel n K) (iv : Index n) (x : Fin n → K) : Decidable (inCell l iv x) := by unfold inCell; infer_instance

/-- The entry of one probe and component in the buffer of one rank: each cell of each own patch that contains the probe overwrites it.
/repo/src/AMReX/PatchHierarchy.cpp:702-725 -/
def gatherLocal (l : OutLevel n K) (rank : ℕ) (x : Fin n → K) (c : ℕ) : K :=
  (l.patches.filter fun p => p.owner = rank).foldl
    (fun acc p => (forEachIndex p.box.toIndexBox).foldl (fun acc iv => if inCell l iv x then p.val c iv else acc) acc) 0

/-- The entry for the finest level after the loops over levels, components and probes: an entry that is zero takes the entry of the coarser level.
/repo/src/AMReX/PatchHierarchy.cpp:726-739; the levels are listed from the finest to the coarsest -/
def gatherLevels (ranks : ℕ) (x : Fin n → K) (c : ℕ) : List (OutLevel n K) → K
  | [] => 0
  | [l] => reduceSum ranks fun rank => gatherLocal l rank x c
  | l :: coarser =>
    let own := reduceSum ranks fun rank => gatherLocal l rank x c
    if own = 0 then gatherLevels ranks x c coarser else own

/-- The vector returned by `GatherStates` as a function of the position: `states(k, comp, finest)` of a left mapping starts at `k + xs.extent(1) * comp`.
/repo/src/AMReX/PatchHierarchy.cpp:690-744 (cut cells: /repo/src/AMReX/cutcell/PatchHierarchy.cpp:1010-1062) -/
def gatherStates (ranks : ℕ) (ls : List (OutLevel n K)) (nprobes : ℕ) (xs : ℕ → Fin n → K) (a : ℕ) : K :=
  gatherLevels ranks (xs (a % nprobes)) (a / nprobes) ls

end

end Fub
