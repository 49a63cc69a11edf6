import Mathlib.Data.Int.Order.Basic
import Mathlib.Data.Fintype.Basic
import Mathlib.Algebra.Group.Pi.Basic
import Mathlib.Order.Lattice

/-!
# Split steps on the patches of a level

Model of `/repo/src/AMReX/ViewFArrayBox.cpp:66-79` (`GetCellsAndFacesInStencilRange`),
`/repo/include/fub/AMReX/FluxMethodAdapter.hpp:111-144`, `/repo/src/AMReX/TimeIntegrator.cpp:28-68`,
`/repo/include/fub/AMReX/Reconstruction.hpp:44-60`, `/repo/include/fub/AMReX/ForEachFab.hpp:31-56`,
the allocation in `/repo/src/AMReX/IntegratorContext.cpp:305-325` and one split step of
`/repo/include/fub/solver/DimensionalSplitLevelIntegrator.hpp:231-266`.

Simplifications: a cell is a vector of integers; the face `c` in direction `dir` lies between the cells
`c - e_dir` and `c`. The flux of a face is any function of the states of its stencil and the update any
function of a state and two fluxes (the arithmetic is C15, C29). Data are total functions together with
the box in which they are allocated; views outside of the box are `none`. The tiles over which
`ForEachFab` iterates come from AMReX: they are a list of boxes. The check of the stable time step and
physical boundaries are not part of this model.
-/

namespace Fub

/-- A cell or a face. Serves the model of /repo/include/fub/AMReX/FluxMethodAdapter.hpp:125-141. -/
abbrev Cell (d : ℕ) := Fin d → ℤ

/-- `amrex::Box`: lowest and highest index, both included (a class of AMReX; the index type is the
argument `dir` of the functions below). Serves the model of /repo/include/fub/PatchDataView.hpp:268-275. -/
structure PatchBox (d : ℕ) where
  lo : Cell d
  hi : Cell d

variable {d : ℕ} {S Φ : Type}

/-- The indices in a box. Serves the model of /repo/include/fub/AMReX/FluxMethodAdapter.hpp:125-141. -/
def PatchBox.mem (b : PatchBox d) (c : Cell d) : Prop := ∀ i, b.lo i ≤ c i ∧ c i ≤ b.hi i

instance (b : PatchBox d) (c : Cell d) : Decidable (b.mem c) := by unfold PatchBox.mem; infer_instance

/-- Containment of bounds, the assertion of `Subview` in
`/repo/include/fub/PatchDataView.hpp:268-275`. -/
def PatchBox.contains (b c : PatchBox d) : Prop := ∀ i, b.lo i ≤ c.lo i ∧ c.hi i ≤ b.hi i

instance (b c : PatchBox d) : Decidable (b.contains c) := by unfold PatchBox.contains; infer_instance

/-- The bounds of which a view can be made, the assertions of
`/repo/include/fub/PatchDataView.hpp:261,279`: the exclusive upper bound is not below the lower one. -/
def PatchBox.viewOk (b : PatchBox d) : Prop := ∀ i, b.lo i ≤ b.hi i + 1

instance (b : PatchBox d) : Decidable (b.viewOk) := by unfold PatchBox.viewOk; infer_instance

/-- `amrex::Box::operator&` (AMReX). Serves the model of /repo/src/AMReX/ViewFArrayBox.cpp:66-79. -/
def PatchBox.inter (a b : PatchBox d) : PatchBox d := ⟨a.lo ⊔ b.lo, a.hi ⊓ b.hi⟩

/-- `amrex::grow(box, dir, n)` (AMReX). Serves the model of /repo/src/AMReX/ViewFArrayBox.cpp:66-79. -/
def PatchBox.grow (b : PatchBox d) (dir : Fin d) (n : ℤ) : PatchBox d :=
  ⟨Function.update b.lo dir (b.lo dir - n), Function.update b.hi dir (b.hi dir + n)⟩

/-- `amrex::enclosedCells` of a box of faces (AMReX). Serves the model of /repo/src/AMReX/ViewFArrayBox.cpp:66-79. -/
def PatchBox.enclosedCells (b : PatchBox d) (dir : Fin d) : PatchBox d :=
  ⟨b.lo, Function.update b.hi dir (b.hi dir - 1)⟩

/-- `amrex::surroundingNodes(box, dir)` (AMReX). Serves the model of /repo/src/AMReX/ViewFArrayBox.cpp:66-79. -/
def PatchBox.surroundingFaces (b : PatchBox d) (dir : Fin d) : PatchBox d :=
  ⟨b.lo, Function.update b.hi dir (b.hi dir + 1)⟩

/-- `Grow(box, dir, {l, u})` of the library, `/repo/include/fub/PatchDataView.hpp:117-124`. -/
def PatchBox.growLoHi (b : PatchBox d) (dir : Fin d) (l u : ℤ) : PatchBox d :=
  ⟨Function.update b.lo dir (b.lo dir - l), Function.update b.hi dir (b.hi dir + u)⟩

/-- The cell which is `k` cells away in the direction `dir`. Serves the model of /repo/src/AMReX/TimeIntegrator.cpp:28-68. -/
def Cell.shift (c : Cell d) (dir : Fin d) (k : ℤ) : Cell d := Function.update c dir (c dir + k)

/-- `GetCellsAndFacesInStencilRange`, `/repo/src/AMReX/ViewFArrayBox.cpp:66-79`. -/
def cellsAndFaces (cellValid faceTile : PatchBox d) (w : ℤ) (dir : Fin d) : PatchBox d × PatchBox d :=
  let cells := cellValid.inter ((faceTile.enclosedCells dir).grow dir w)
  (cells, faceTile.inter ((cells.grow dir (-w)).surroundingFaces dir))

/-- The states of the stencil of a face: `w` cells on each side. Serves the model of /repo/include/fub/AMReX/FluxMethodAdapter.hpp:125-141. -/
def stencilAt (w : ℕ) (q : Cell d → S) (f : Cell d) (dir : Fin d) : Fin (2 * w) → S :=
  fun k => q (f.shift dir (k - w))

/-- The body of the loop over the tiles in `FluxMethodAdapter::ComputeNumericFluxes`,
`/repo/include/fub/AMReX/FluxMethodAdapter.hpp:125-141`, with the sub view of the flux method
(`Grow(fluxbox, dir, {kWidth, kWidth - 1})`, `/repo/include/fub/flux_method/FluxMethod.hpp:253-256` and
`/repo/include/fub/AMReX/AxialFluxMethodAdapter.hpp:192-195`, where the flux includes the pressure). -/
def fluxTile (w : ℕ) (flux : (Fin (2 * w) → S) → Φ) (dir : Fin d) (scratchBox : PatchBox d)
    (q : Cell d → S) (tile : PatchBox d) (old : Cell d → Φ) : Option (Cell d → Φ) :=
  let (cells, faces) := cellsAndFaces scratchBox tile w dir
  if cells.viewOk ∧ faces.viewOk ∧ cells.contains (faces.growLoHi dir w (w - 1)) then
    some fun f => if faces.mem f then flux (stencilAt w q f dir) else old f
  else none

/-- `ComputeNumericFluxes` over all tiles of the faces of a patch in any order. Serves the model of /repo/include/fub/solver/DimensionalSplitLevelIntegrator.hpp:252-262. -/
def fluxSweep (w : ℕ) (flux : (Fin (2 * w) → S) → Φ) (dir : Fin d) (scratchBox : PatchBox d)
    (q : Cell d → S) (tiles : List (PatchBox d)) (old : Cell d → Φ) : Option (Cell d → Φ) :=
  tiles.foldlM (fun acc t => fluxTile w flux dir scratchBox q t acc) old

/-- The cells of a tile which are updated: those with both faces in the box of the fluxes.
`/repo/src/AMReX/TimeIntegrator.cpp:40-45`. -/
def updateBox (fluxBox tile : PatchBox d) (dir : Fin d) : PatchBox d :=
  ((tile.surroundingFaces dir).inter fluxBox).enclosedCells dir

/-- `ForwardIntegrator::UpdateConservatively`, in place, over all tiles of the cells.
`/repo/src/AMReX/TimeIntegrator.cpp:28-68`. -/
def updateSweep (update : S → Φ → Φ → S) (dir : Fin d) (fluxBox : PatchBox d) (flux : Cell d → Φ)
    (tiles : List (PatchBox d)) (q : Cell d → S) : Option (Cell d → S) :=
  tiles.foldlM (fun acc t =>
    if (updateBox fluxBox t dir).viewOk then
      some fun c => if (updateBox fluxBox t dir).mem c then
        update (acc c) (flux c) (flux (c.shift dir 1)) else acc c
    else none) q

/-- `Reconstruction::CompleteFromCons`, in place, over all tiles of the cells.
`/repo/include/fub/AMReX/Reconstruction.hpp:44-60`. -/
def completeSweep (complete : S → S) (tiles : List (PatchBox d)) (q : Cell d → S) : Cell d → S :=
  tiles.foldl (fun acc t => fun c => if t.mem c then complete (acc c) else acc c) q

/-- The boxes of a patch: the cells in which it is allocated and the faces of each direction, from the
valid box and the options `scratch_gcw` and `flux_gcw`. `/repo/src/AMReX/IntegratorContext.cpp:313-323`. -/
def scratchBox (valid : PatchBox d) (scratchGcw : ℕ) : PatchBox d :=
  ⟨fun i => valid.lo i - scratchGcw, fun i => valid.hi i + scratchGcw⟩

/-- See `scratchBox`: `fgrow = grow; fgrow[d] = flux_gcw`. Serves the model of /repo/src/AMReX/TimeIntegrator.cpp:40-45. -/
def fluxBox (valid : PatchBox d) (scratchGcw fluxGcw : ℕ) (dir : Fin d) : PatchBox d :=
  ⟨fun i => valid.lo i - (if i = dir then fluxGcw else scratchGcw),
   fun i => if i = dir then valid.hi i + 1 + fluxGcw else valid.hi i + scratchGcw⟩

/-- One split step: its direction and the numerical method with the time step already inserted. Serves the model of /repo/include/fub/solver/DimensionalSplitLevelIntegrator.hpp:252-262. -/
structure SplitStep (d w : ℕ) (S Φ : Type) where
  dir : Fin d
  flux : (Fin (2 * w) → S) → Φ
  update : S → Φ → Φ → S
  complete : S → S

/-- How a patch executes a split step: the tiles of the three loops and the content of the fluxes
before the step. Serves the model of /repo/include/fub/solver/DimensionalSplitLevelIntegrator.hpp:252-262. -/
structure SplitRun (d : ℕ) (Φ : Type) where
  faceTiles : List (PatchBox d)
  cellTiles : List (PatchBox d)
  oldFlux : Cell d → Φ

/-- A split step on a patch: fluxes, conservative update, reconstruction.
`/repo/include/fub/solver/DimensionalSplitLevelIntegrator.hpp:252-262`. -/
def patchSplitStep {w : ℕ} (valid : PatchBox d) (scratchGcw fluxGcw : ℕ) (s : SplitStep d w S Φ)
    (r : SplitRun d Φ) (q : Cell d → S) : Option (Cell d → S) :=
  (fluxSweep w s.flux s.dir (scratchBox valid scratchGcw) q r.faceTiles r.oldFlux).bind fun flux =>
    (updateSweep s.update s.dir (fluxBox valid scratchGcw fluxGcw s.dir) flux r.cellTiles q).map fun next =>
      completeSweep s.complete r.cellTiles next

/-- All split steps of a level step, one after the other, without filling the ghost cells between them.
`/repo/include/fub/solver/DimensionalSplitLevelIntegrator.hpp:227-279`. -/
def patchSteps {w : ℕ} (valid : PatchBox d) (scratchGcw fluxGcw : ℕ)
    (steps : List (SplitStep d w S Φ × SplitRun d Φ)) (q : Cell d → S) : Option (Cell d → S) :=
  steps.foldlM (fun acc s => patchSplitStep valid scratchGcw fluxGcw s.1 s.2 acc) q

end Fub
