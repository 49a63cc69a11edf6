import Verif.Model.Boundary

/-!
# Model of the boundary conditions on meshes with an embedded boundary

Source: `/repo/include/fub/AMReX/cutcell/boundary_condition/*.hpp`, `/repo/src/AMReX/cutcell/boundary_condition/*.cpp` and
`/repo/src/AMReX/boundary_condition/IsentropicPressureBoundary.cpp`.

Simplifications as in `Model/Boundary.lean`. The volume fractions are a function on all cells; a cell is open when its volume fraction is
positive. The state in the ghost cell is a parameter `f` (the formulas are C36, C64, C79, C80 and C142); `none` is an exception or a failed
assertion. A source cell is required to lie in the patch also when the destination is closed.
-/

namespace Fub
variable {n : Nat} {α : Type*}

/-- The body of the loops: when destination and source are both open the state of the source is transformed and stored; otherwise the
destination is set to zeros (`closed = some zeros`) or left alone (`closed = none`). Serves the model of /repo/include/fub/AMReX/cutcell/boundary_condition/ReflectiveBoundary.hpp:67-119. -/
def maskedCell (isOpen : Index n → Bool) (f : α → Option α) (closed : Option α) (dest src : Index n) (data : Index n → α) : Option α :=
  if isOpen dest && isOpen src then f (data src) else some (closed.getD (data dest))

/-- The loop over pairs (destination, source), in place. Serves the model of /repo/include/fub/AMReX/cutcell/boundary_condition/ReflectiveBoundary.hpp:67-119. -/
def runMasked (fab : IndexBox n) (isOpen : Index n → Bool) (f : α → Option α) (closed : Option α) :
    List (Index n × Index n) → (Index n → α) → Option (Index n → α)
  | [], data => some data
  | p :: ps, data =>
    if fab.contains p.1 && fab.contains p.2 then
      (maskedCell isOpen f closed p.1 p.2 data).bind fun v => runMasked fab isOpen f closed ps (Function.update data p.1 v)
    else none

/-- The cell next to the box to be filled: `src[dir] = x0`.
/repo/src/AMReX/cutcell/boundary_condition/PressureOutflowBoundary.cpp:73-75,83-85,
/repo/src/AMReX/cutcell/boundary_condition/IsentropicPressureBoundary.cpp:129-131,138 -/
def besideBox (box : IndexBox n) (i : Index n) (dir : Fin n) (side : Int) : Index n :=
  Function.update i dir (if side ≠ 0 then box.lower dir - 1 else box.upper dir)

/-- `cutcell::ReflectiveBoundary::FillBoundary` on one patch; `f` is `Reflect` (the assertion on the density is part of `f`).
/repo/include/fub/AMReX/cutcell/boundary_condition/ReflectiveBoundary.hpp:67-119 -/
def cutReflectiveFill (g : Geom n) (ngrow : Int) (dir : Fin n) (side : Int) (isOpen : Index n → Bool) (f : α → Option α) (zeros : α)
    (p : PatchTiles n) (data : Index n → α) : Option (Index n → α) :=
  runMasked p.fab isOpen f (some zeros)
    (ghostCopies p.tiles (sideBoxes (boxDiff (g.grown ngrow) g.domain) g.domain dir side ngrow) fun box i => reflectIndex i box dir side) data

/-- `PressureOutflowBoundary::FillBoundary` and `PressureOutflowBoundary2::FillBoundary` on one patch.
/repo/src/AMReX/cutcell/boundary_condition/PressureOutflowBoundary.cpp:43-104,
/repo/src/AMReX/cutcell/boundary_condition/PressureOutflowBoundary2.cpp:32-96 -/
def cutOutflowFill (g : Geom n) (ngrow : Int) (dir : Fin n) (side : Int) (isOpen : Index n → Bool) (f : α → Option α) (zeros : α)
    (p : PatchTiles n) (data : Index n → α) : Option (Index n → α) :=
  runMasked p.fab isOpen f (some zeros)
    (ghostCopies p.tiles (sideBoxes (boxDiff (g.grown ngrow) g.domain) g.domain dir side ngrow) fun box i => besideBox box i dir side) data

/-- `cutcell::IsentropicPressureBoundary::FillBoundary` on one patch: closed ghost cells are left alone.
/repo/src/AMReX/cutcell/boundary_condition/IsentropicPressureBoundary.cpp:104-163 -/
def cutIsentropicFill (g : Geom n) (ngrow : Int) (dir : Fin n) (side : Int) (isOpen : Index n → Bool) (f : α → Option α)
    (p : PatchTiles n) (data : Index n → α) : Option (Index n → α) :=
  runMasked p.fab isOpen f none
    (ghostCopies p.tiles (sideBoxes (boxDiff (g.grown ngrow) g.domain) g.domain dir side ngrow) fun box i => besideBox box i dir side) data

/-- `cutcell::ConstantBoundary::FillBoundary` on one patch.
/repo/include/fub/AMReX/cutcell/boundary_condition/ConstantBoundary.hpp:57-102 -/
def cutConstantFill (g : Geom n) (ngrow : Int) (dir : Fin n) (side : Int) (isOpen : Index n → Bool) (state zeros : α)
    (p : PatchTiles n) (data : Index n → α) : Option (Index n → α) :=
  runMasked p.fab isOpen (fun _ => some state) (some zeros) (ghostCopies p.tiles (slabBoxes g ngrow dir side) fun _ i => i) data

/-- `ReflectiveBoundary2::FillBoundary` on one patch: the box to be filled is the given section, on every level.
/repo/include/fub/AMReX/cutcell/boundary_condition/ReflectiveBoundary2.hpp:83-125 -/
def sectionReflectiveFill (section_ : IndexBox n) (dir : Fin n) (side : Int) (isOpen : Index n → Bool) (f : α → Option α) (zeros : α)
    (p : PatchTiles n) (data : Index n → α) : Option (Index n → α) :=
  runMasked p.fab isOpen f (some zeros) (ghostCopies p.tiles [section_] fun box i => reflectIndex i box dir side) data

/-- `TurbineMassflowBoundary::FillBoundary` in the modes `cellwise` and `average_massflow` and `MachnumberBoundary::FillBoundary` on one
patch. /repo/include/fub/AMReX/cutcell/boundary_condition/TurbineMassflowBoundary.hpp:283-346,
/repo/include/fub/AMReX/cutcell/boundary_condition/MachnumberBoundary.hpp:90-121 -/
def sectionEdgeFill (g : Geom n) (section_ : IndexBox n) (dir : Fin n) (side : Int) (isOpen : Index n → Bool) (f : α → Option α)
    (p : PatchTiles n) (data : Index n → α) : Option (Index n → α) :=
  runMasked p.fab isOpen f none (ghostCopies p.tiles [section_] fun _ i => mapToSrc i g.domain side dir) data

/-- `MapToSrc` of the isentropic pressure boundary without embedded boundary.
/repo/src/AMReX/boundary_condition/IsentropicPressureBoundary.cpp:47-58 -/
def mapToMirror (dest : Index n) (domain : IndexBox n) (side : Int) (dir : Fin n) : Index n :=
  let boundary := (if side = 0 then 1 else 0) * domain.lower dir + (if side = 1 then 1 else 0) * (domain.upper dir - 1)
  let distance := dest dir - boundary
  let sign := (if distance > 0 then 1 else 0) - (if distance < 0 then 1 else 0)
  Function.update dest dir (dest dir - (2 * distance - sign))

/-- `cutcell::IsentropicPressureExpansion::FillBoundary` on one patch, and, with `isOpen` always true, `IsentropicPressureBoundary::FillBoundary`
and `IsentropicPressureExpansion::FillBoundary` of the meshes without embedded boundary.
/repo/include/fub/AMReX/cutcell/boundary_condition/IsentropicPressureExpansion.hpp:112-157,
/repo/src/AMReX/boundary_condition/IsentropicPressureBoundary.cpp:121-155,
/repo/include/fub/AMReX/boundary_condition/IsentropicPressureExpansion.hpp:122-161 -/
def expansionFill (g : Geom n) (ngrow : Int) (dir : Fin n) (side : Int) (isOpen : Index n → Bool) (f : α → Option α) (p : PatchTiles n)
    (data : Index n → α) : Option (Index n → α) :=
  runMasked p.fab isOpen f none
    (ghostCopies p.tiles (sideBoxes (boxDiff (g.grown ngrow) g.domain) g.domain dir side ngrow) fun _ i => mapToMirror i g.domain side dir) data

end Fub
