import Mathlib.Data.Fin.Basic
import Mathlib.Data.List.Basic

/-!
# The advective fluxes kept by the context of the compressible advection solver

Model of /repo/src/AMReX/CompressibleAdvectionIntegratorContext.cpp:24-134 and of the part of
/repo/src/AMReX/IntegratorContext.cpp:286-333 it relies on: on every level of the hierarchy the context owns a cell field with two
components and one face field per direction. `none` as a value of a field is storage that nobody wrote. Accesses outside of the
vector of levels are undefined in the code, the functions below return `none` for them. `n + 1` is `AMREX_SPACEDIM`.
-/

namespace Fub

/-- A `MultiFab`: the boxes and their owners (`layout`), the direction of the faces it lives on (`none`: cells), components,
ghost widths, and the values. -/
structure AdvFab (n : Nat) (L K : Type) where
  layout : L
  face : Option (Fin (n + 1))
  ncomp : Nat
  grow : Fin (n + 1) → Nat
  val : Nat → (Fin (n + 1) → Int) → Option K

/-- `::amrex::MultiFab(ba, dm, ncomp, grow)`: storage without values. Used in
/repo/src/AMReX/CompressibleAdvectionIntegratorContext.cpp:88, 98-99, 119, 128-129 -/
def advAlloc {n : Nat} {L : Type} (K : Type) (ly : L) (face : Option (Fin (n + 1))) (ncomp : Nat) (grow : Fin (n + 1) → Nat) :
    AdvFab n L K :=
  { layout := ly, face := face, ncomp := ncomp, grow := grow, val := fun _ _ => none }

/-- `CompressibleAdvectionAdvectiveFluxes`, /repo/include/fub/AMReX/CompressibleAdvectionIntegratorContext.hpp:28-31 -/
structure AdvFlux (n : Nat) (L K : Type) where
  onCells : AdvFab n L K
  onFaces : Fin (n + 1) → AdvFab n L K

/-- Shape of the scratch and of the fluxes in `IntegratorContext::LevelData`, /repo/include/fub/AMReX/IntegratorContext.hpp:289-300.
Simplification: only the boxes and the ghost widths, the values are modelled elsewhere. -/
structure AdvBase (n : Nat) (L : Type) where
  layout : L
  scratchGrow : Fin (n + 1) → Nat
  fluxLayout : Fin (n + 1) → L
  fluxFace : Fin (n + 1) → Option (Fin (n + 1))
  fluxGrow : Fin (n + 1) → Fin (n + 1) → Nat

/-- The context: the levels of the hierarchy and the largest number of levels it may have, `Rank()`, the two options for ghost
widths, `data_` and `Pv_`. An entry `none` of a vector is a default constructed element. -/
structure AdvCtx (n : Nat) (L K : Type) where
  levels : List L
  maxLevels : Nat
  rank : Nat
  scratchGcw : Nat
  fluxGcw : Nat
  data : List (Option (AdvBase n L))
  pv : List (Option (AdvFlux n L K))

variable {n : Nat} {L K : Type}

/-- `std::vector::resize`. -/
def advResize {α : Type} (size : Nat) (old : List (Option α)) : List (Option α) :=
  (List.range size).map fun l => (old[l]?).join

/-- The shape `IntegratorContext::ResetHierarchyConfiguration(int)` gives a level, /repo/src/AMReX/IntegratorContext.cpp:308-326 -/
def advBase (c : AdvCtx n L K) (ly : L) : AdvBase n L :=
  { layout := ly
    scratchGrow := fun i => if i.val < c.rank then c.scratchGcw else 0
    fluxLayout := fun _ => ly
    fluxFace := fun d => some d
    fluxGrow := fun d i => if i = d then c.fluxGcw else if i.val < c.rank then c.scratchGcw else 0 }

/-- `IntegratorContext::ResetHierarchyConfiguration(first_level)`: `data_` gets one entry per level and the entries from
`first` on are defined again. /repo/src/AMReX/IntegratorContext.cpp:292-333 -/
def advBaseReset (first : Nat) (c : AdvCtx n L K) : AdvCtx n L K :=
  { c with
    data := (List.range c.levels.length).map fun l =>
      if l < first then (c.data[l]?).join else (c.levels[l]?).map (advBase c) }

/-- The fields the loop body allocates on a level: boxes of the cells from the hierarchy, boxes of the faces from the fluxes,
`GetScratch(level).nGrow()` is the ghost width in the first direction.
/repo/src/AMReX/CompressibleAdvectionIntegratorContext.cpp:80-100, 111-130 -/
def advAllocLevel (K : Type) (ly : L) (b : AdvBase n L) : AdvFlux n L K :=
  { onCells := advAlloc K ly none 2 (fun _ => b.scratchGrow 0 + 1)
    onFaces := fun d => advAlloc K (b.fluxLayout d) (b.fluxFace d) 1
      (fun i => if i = d then b.fluxGrow d i + 1 else b.fluxGrow d i) }

/-- What the loop leaves in the entry of level `l`. /repo/src/AMReX/CompressibleAdvectionIntegratorContext.cpp:80-100, 111-130 -/
def advLevelEntry (first : Nat) (c : AdvCtx n L K) (l : Nat) : Option (AdvFlux n L K) :=
  if l < first then (c.pv[l]?).join
  else
    match c.levels[l]?, (c.data[l]?).join with
    | some ly, some b => some (advAllocLevel K ly b)
    | _, _ => (c.pv[l]?).join

/-- The loop over the levels from `first` to the number of levels; undefined if it leaves the vector.
/repo/src/AMReX/CompressibleAdvectionIntegratorContext.cpp:80-101, 111-131 -/
def advAllocLoop (first : Nat) (c : AdvCtx n L K) : Option (AdvCtx n L K) :=
  if c.levels.length ≤ first ∨ c.levels.length ≤ c.pv.length then
    some { c with pv := (List.range c.pv.length).map (advLevelEntry first c) }
  else none

/-- `ResetHierarchyConfiguration(coarsest_level)`, /repo/src/AMReX/CompressibleAdvectionIntegratorContext.cpp:104-132 -/
def advReset (first : Nat) (c : AdvCtx n L K) : Option (AdvCtx n L K) :=
  let c1 := if c.pv.length = 0 then { c with pv := advResize c.maxLevels c.pv } else c
  advAllocLoop first (advBaseReset first c1)

/-- `ResetHierarchyConfiguration(gridding)`: the base class stores the gridding and calls the virtual function above before the
levels are allocated once more. /repo/src/AMReX/CompressibleAdvectionIntegratorContext.cpp:72-102,
/repo/src/AMReX/IntegratorContext.cpp:286-290 -/
def advResetGridding (levels : List L) (maxLevels : Nat) (c : AdvCtx n L K) : Option (AdvCtx n L K) := do
  let c1 := { c with pv := advResize maxLevels c.pv }
  let c2 ← advReset 0 { c1 with levels := levels, maxLevels := maxLevels }
  advAllocLoop 0 c2

/-- Both constructors, /repo/src/AMReX/CompressibleAdvectionIntegratorContext.cpp:24-37 -/
def advConstruct (K : Type) (n : Nat) (levels : List L) (maxLevels rank scratchGcw fluxGcw : Nat) : Option (AdvCtx n L K) :=
  advReset 0
    { levels := levels, maxLevels := maxLevels, rank := rank, scratchGcw := scratchGcw, fluxGcw := fluxGcw, data := [], pv := [] }

/-- `dst.ParallelCopy(src, periodicity)`: all components, from valid cells to valid cells.
Simplification: periodic images of cells are left out; they lie outside of the valid cells, except for the faces on the two sides of a
periodic direction, which hold the same point. `valid` says which points belong to the boxes of a layout without ghost cells. -/
def advParallelCopy (valid : L → Option (Fin (n + 1)) → (Fin (n + 1) → Int) → Bool) (dst src : AdvFab n L K) : AdvFab n L K :=
  { dst with
    val := fun k x =>
      if k < dst.ncomp ∧ valid dst.layout dst.face x = true ∧ valid src.layout src.face x = true then src.val k x else dst.val k x }

/-- The loop body of the copy constructor, /repo/src/AMReX/CompressibleAdvectionIntegratorContext.cpp:47-56 (the directions below
`Rank()`). -/
def advCopyLevel (valid : L → Option (Fin (n + 1)) → (Fin (n + 1) → Int) → Bool) (rank : Nat) (dst src : AdvFlux n L K) :
    AdvFlux n L K :=
  { onCells := advParallelCopy valid dst.onCells src.onCells
    onFaces := fun d => if d.val < rank then advParallelCopy valid (dst.onFaces d) (src.onFaces d) else dst.onFaces d }

/-- What the loop of the copy constructor leaves in the entry of level `l` of the copy `t`.
/repo/src/AMReX/CompressibleAdvectionIntegratorContext.cpp:47-56 -/
def advCopyEntry (valid : L → Option (Fin (n + 1)) → (Fin (n + 1) → Int) → Bool) (t c : AdvCtx n L K) (l : Nat) :
    Option (AdvFlux n L K) :=
  match (t.pv[l]?).join, (c.pv[l]?).join with
  | some dst, some src => some (if l < t.levels.length then advCopyLevel valid t.rank dst src else dst)
  | dst, _ => dst

/-- The copy constructor. The base class copies hierarchy and options and leaves `data_` empty
(/repo/src/AMReX/IntegratorContext.cpp:174-177), `Pv_` starts out empty.
/repo/src/AMReX/CompressibleAdvectionIntegratorContext.cpp:41-58 -/
def advCopy (valid : L → Option (Fin (n + 1)) → (Fin (n + 1) → Int) → Bool) (c : AdvCtx n L K) : Option (AdvCtx n L K) := do
  let t ← advReset 0 { c with data := [], pv := [] }
  if t.levels.length ≤ c.pv.length then
    some { t with
      pv := (List.range t.pv.length).map (advCopyEntry valid t c) }
  else none

/-- What happens to a context between time steps. -/
inductive AdvOp (n : Nat) (L K : Type) where
  /-- The gridding algorithm replaces the levels from `first` on, /repo/src/AMReX/IntegratorContext.cpp:615-624 -/
  | regrid (first : Nat) (tail : List L)
  /-- `ResetHierarchyConfiguration(gridding)` -/
  | replace (levels : List L) (maxLevels : Nat)
  /-- A user writes through `GetAdvectiveFluxes(level)`,
  /repo/src/AMReX/CompressibleAdvectionIntegratorContext.cpp:66-70 -/
  | write (level : Nat) (cells : Nat → (Fin (n + 1) → Int) → Option K)
      (faces : Fin (n + 1) → Nat → (Fin (n + 1) → Int) → Option K)
  /-- The context is replaced by a copy of itself (copy constructor or copy assignment),
  /repo/src/AMReX/CompressibleAdvectionIntegratorContext.cpp:41-64 -/
  | copy

/-- `GetAdvectiveFluxes(level)`, /repo/src/AMReX/CompressibleAdvectionIntegratorContext.cpp:66-75 -/
def AdvCtx.fluxes (c : AdvCtx n L K) (l : Nat) : Option (AdvFlux n L K) := (c.pv[l]?).join

/-- New values, shapes stay. /repo/src/AMReX/CompressibleAdvectionIntegratorContext.cpp:66-70 -/
def advSetValues (cells : Nat → (Fin (n + 1) → Int) → Option K) (faces : Fin (n + 1) → Nat → (Fin (n + 1) → Int) → Option K)
    (p : AdvFlux n L K) : AdvFlux n L K :=
  { onCells := { p.onCells with val := cells }, onFaces := fun d => { p.onFaces d with val := faces d } }

/-- Writing all values of a level, shapes stay. /repo/src/AMReX/CompressibleAdvectionIntegratorContext.cpp:66-70 -/
def advWrite (l : Nat) (cells : Nat → (Fin (n + 1) → Int) → Option K) (faces : Fin (n + 1) → Nat → (Fin (n + 1) → Int) → Option K)
    (c : AdvCtx n L K) : Option (AdvCtx n L K) :=
  if l < c.pv.length then
    some { c with
      pv := c.pv.modify l (Option.map (advSetValues cells faces)) }
  else none

/-- One operation. -/
def advStep (valid : L → Option (Fin (n + 1)) → (Fin (n + 1) → Int) → Bool) (c : AdvCtx n L K) : AdvOp n L K → Option (AdvCtx n L K)
  | .regrid first tail => advReset first { c with levels := c.levels.take first ++ tail }
  | .replace levels m => advResetGridding levels m c
  | .write l cells faces => advWrite l cells faces c
  | .copy => advCopy valid c

/-- A history. -/
def advRun (valid : L → Option (Fin (n + 1)) → (Fin (n + 1) → Int) → Bool) : AdvCtx n L K → List (AdvOp n L K) → Option (AdvCtx n L K)
  | c, [] => some c
  | c, op :: ops => (advStep valid c op).bind fun c' => advRun valid c' ops

end Fub
