import Verif.Model.Average
import Verif.Model.CutBoundary

/-!
# Model of the mass flow boundaries on meshes with an embedded boundary

Source: `/repo/include/fub/AMReX/cutcell/boundary_condition/TurbineMassflowBoundary.hpp` and
`/repo/src/AMReX/cutcell/boundary_condition/MassflowBoundary.cpp`.

Simplifications: exact numbers; the loops over the patches of one level are the function `level` on its cells (all processes) for what is averaged, and
`data` on one patch for what is filled; `MPI_Allreduce` adds the contributions of all processes. The functions of the equation are parameters
(`FlowOps`); the formula of the required mass flow and the transformations of the state are C81-C83. Logging is left out.
-/

namespace Fub
variable {n : Nat} {K Q κ : Type}

/-- The functions of the equation and of the boundary that the fill uses. `cons` are the conserved components (`AsCons`), `complete` is `CompleteFromCons`,
`required` is `ComputeRequiredMassflow` and `transform r q` the transformation of `q` to the mass flow `r`; `none` is an exception or a stop.
Serves the model of /repo/include/fub/AMReX/cutcell/boundary_condition/TurbineMassflowBoundary.hpp:344-386. -/
structure FlowOps (K Q κ : Type) where
  cons : Q → κ → K
  complete : (κ → K) → Q
  required : Q → K
  transform : K → Q → Option Q

/-- `TransformState(dest, source)`. /repo/include/fub/AMReX/cutcell/boundary_condition/TurbineMassflowBoundary.hpp:380-386 -/
def FlowOps.transformState (ops : FlowOps K Q κ) (q : Q) : Option Q := ops.transform (ops.required q) q

/-- `TurbineMassflowMode`. /repo/include/fub/AMReX/cutcell/boundary_condition/TurbineMassflowBoundary.hpp:67-72 -/
inductive TurbineMode | cellwise | averageInnerState | averageOuterState | averageMassflow

variable [Field K]

/-- `AverageRequiredMassflow`; `mirror` is `coarse_average_mirror_box`, `ranks` are the tiles of the patches of the level on every process.
/repo/include/fub/AMReX/cutcell/boundary_condition/TurbineMassflowBoundary.hpp:182-201 -/
def averageRequired (ops : FlowOps K Q κ) (level : Index n → Q) (mirror : IndexBox n) (ranks : List (List (IndexBox n))) : K :=
  (ranks.map fun tiles => accumulateState (fun average q => average + ops.required q / (boxNumPts mirror : K)) level mirror tiles 0).sum

/-- The state which the mode `average_inner_state` stores.
/repo/include/fub/AMReX/cutcell/boundary_condition/TurbineMassflowBoundary.hpp:214-226 -/
def innerGhost (ops : FlowOps K Q κ) (level : Index n → Q) (mirror : IndexBox n) (ranks : List (List (IndexBox n))) : Option Q :=
  ops.transformState (ops.complete fun k => averageState (fun i => ops.cons (level i) k) mirror ranks)

/-- The state which the mode `average_outer_state` stores. The loop of one process stops when a transformation fails.
/repo/include/fub/AMReX/cutcell/boundary_condition/TurbineMassflowBoundary.hpp:240-266 -/
def outerGhost (ops : FlowOps K Q κ) (level : Index n → Q) (mirror : IndexBox n) (ranks : List (List (IndexBox n))) : Option Q :=
  let add : Option (κ → K) → Q → Option (κ → K) := fun average q =>
    average.bind fun a => (ops.transformState (ops.complete (ops.cons q))).map fun e k => a k + ops.cons e k / (boxNumPts mirror : K)
  (ranks.mapM fun tiles => accumulateState add level mirror tiles (some fun _ => 0)).map fun sums =>
    ops.complete fun k => (sums.map fun a => a k).sum

/-- `TurbineMassflowBoundary::FillBoundary` on one patch.
/repo/include/fub/AMReX/cutcell/boundary_condition/TurbineMassflowBoundary.hpp:203-280 -/
def turbineFill (ops : FlowOps K Q κ) (mode : TurbineMode) (mirror section_ : IndexBox n) (ranks : List (List (IndexBox n))) (level : Index n → Q)
    (g : Geom n) (ngrow : Int) (dir : Fin n) (side : Int) (isOpen : Index n → Bool) (zeros : Q) (p : PatchTiles n) (data : Index n → Q) :
    Option (Index n → Q) :=
  match mode with
  | .averageInnerState => (innerGhost ops level mirror ranks).bind fun s => cutConstantFill g ngrow dir side isOpen s zeros p data
  | .averageMassflow => sectionEdgeFill g section_ dir side isOpen (ops.transform (averageRequired ops level mirror ranks)) p data
  | .averageOuterState => (outerGhost ops level mirror ranks).bind fun s => cutConstantFill g ngrow dir side isOpen s zeros p data
  | .cellwise => sectionEdgeFill g section_ dir side isOpen ops.transformState p data

/-- `TotalVolume`. /repo/src/AMReX/cutcell/boundary_condition/MassflowBoundary.cpp:46-63 -/
def openVolume (alpha : Index n → K) (box : IndexBox n) (ranks : List (List (IndexBox n))) : K :=
  (ranks.map fun tiles => accumulateState (fun acc a => acc + a) alpha box tiles 0).sum

/-- `AverageState` of `MassflowBoundary.cpp` for one component. /repo/src/AMReX/cutcell/boundary_condition/MassflowBoundary.cpp:65-93 -/
def volumeAverage (alpha data : Index n → K) (box : IndexBox n) (ranks : List (List (IndexBox n))) : K :=
  (ranks.map fun tiles => accumulateState (fun acc (c : K × K) => acc + c.1 / openVolume alpha box ranks * c.2) (fun i => (alpha i, data i)) box tiles 0).sum

/-- `MassflowBoundary::FillBoundary` on one patch with a given outer state. /repo/src/AMReX/cutcell/boundary_condition/MassflowBoundary.cpp:155-190 -/
def cutMassflowStore (g : Geom n) (ngrow : Int) (dir : Fin n) (side : Int) (isOpen : Index n → Bool) (state : Q) (p : PatchTiles n)
    (data : Index n → Q) : Option (Index n → Q) :=
  runMasked p.fab isOpen (fun _ => some state) none
    (ghostCopies p.tiles (sideBoxes (boxDiff (g.grown ngrow) g.domain) g.domain dir side ngrow) fun _ i => i) data

/-- `MassflowBoundary::FillBoundary` on one patch of any level. `alpha0`, `level0` and `ranks` belong to the coarsest level; the outer state for the given mass flow
`required` is `ops.transform`, `none` if the Cantera reactor throws. /repo/src/AMReX/cutcell/boundary_condition/MassflowBoundary.cpp:97-153 -/
def cutMassflowFill (ops : FlowOps K Q κ) (required : K) (inner : IndexBox n) (ranks : List (List (IndexBox n))) (alpha0 : Index n → K) (level0 : Index n → Q)
    (g : Geom n) (ngrow : Int) (dir : Fin n) (side : Int) (isOpen : Index n → Bool) (p : PatchTiles n) (data : Index n → Q) : Option (Index n → Q) :=
  (ops.transform required (ops.complete fun k => volumeAverage alpha0 (fun i => ops.cons (level0 i) k) inner ranks)).bind fun s =>
    cutMassflowStore g ngrow dir side isOpen s p data

end Fub
