import Verif.Model.IndexBox

/-!
# Model of the ghost cell boundary conditions

Source: `/repo/src/boundary_condition/ReflectiveBoundary.cpp`, `/repo/include/fub/boundary_condition/ReflectiveBoundary.hpp`,
`/repo/include/fub/AMReX/boundary_condition/{ReflectiveBoundary,ConstantBoundary,BoundarySet}.hpp`,
`/repo/src/AMReX/boundary_condition/{TransmissiveBoundary,BoundarySet}.cpp`.

Simplifications: AMReX boxes (inclusive ends) are half-open index boxes; a patch (`FArrayBox`) is a function on its grown box with one value of type
`α` per cell (all components together); reading or writing outside the grown box of the patch is `none`. The iteration over tiles is a list of grown
tile boxes, in any order. AMReX itself is not part of /repo: `boxDiff` and `growNonPeriodicDomain` follow its documented behaviour.
-/

namespace Fub
variable {n : Nat} {α : Type*}

/-- `GetSign(side)`. /repo/include/fub/AnyBoundaryCondition.hpp:141 -/
def getSign (side : Int) : Int := (if side = 0 then 1 else 0) - (if side = 1 then 1 else 0)

/-- `ReflectIndex`. /repo/src/boundary_condition/ReflectiveBoundary.cpp:25-37 -/
def reflectIndex (i : Index n) (fillbox : IndexBox n) (dir : Fin n) (side : Int) : Index n :=
  if side = 0 then
    let distance := fillbox.upper dir - i dir
    Function.update i dir (i dir + (2 * distance - 1))
  else
    let distance := i dir - (fillbox.lower dir - 1)
    Function.update i dir (i dir - 2 * distance + 1)

/-- `MapToSrc` of the transmissive boundary. /repo/src/AMReX/boundary_condition/TransmissiveBoundary.cpp:31-42 -/
def mapToSrc (dest : Index n) (domain : IndexBox n) (side : Int) (dir : Fin n) : Index n :=
  Function.update dest dir
    ((if side = 0 then 1 else 0) * domain.lower dir + (if side = 1 then 1 else 0) * (domain.upper dir - 1))

/-- The index domain of a level and its periodic directions (`amrex::Geometry`). Serves the model of /repo/include/fub/AMReX/boundary_condition/ReflectiveBoundary.hpp:67-94. -/
structure Geom (n : Nat) where
  domain : IndexBox n
  periodic : Fin n → Bool

/-- `Geometry::growNonPeriodicDomain(ngrow)` (AMReX). Serves the model of /repo/include/fub/AMReX/boundary_condition/ReflectiveBoundary.hpp:67-94. -/
def Geom.grown (g : Geom n) (ngrow : Int) : IndexBox n :=
  ⟨fun d => if g.periodic d then g.domain.lower d else g.domain.lower d - ngrow,
   fun d => if g.periodic d then g.domain.upper d else g.domain.upper d + ngrow⟩

/-- One pass of `amrex::boxDiff` per direction: cut off the part of `b1` below `b2`, then the part above, and go on with the rest (AMReX). Serves the model of /repo/include/fub/AMReX/boundary_condition/ReflectiveBoundary.hpp:67-94. -/
def boxDiffLoop (b2 : IndexBox n) : List (Fin n) → IndexBox n → List (IndexBox n)
  | [], _ => []
  | i :: is, b1 =>
    let cutLo := b1.lower i < b2.lower i ∧ b2.lower i < b1.upper i
    let lo := if cutLo then [(⟨b1.lower, Function.update b1.upper i (b2.lower i)⟩ : IndexBox n)] else []
    let b1 : IndexBox n := if cutLo then ⟨Function.update b1.lower i (b2.lower i), b1.upper⟩ else b1
    let cutHi := b1.lower i < b2.upper i ∧ b2.upper i < b1.upper i
    let hi := if cutHi then [(⟨Function.update b1.lower i (b2.upper i), b1.upper⟩ : IndexBox n)] else []
    let b1 : IndexBox n := if cutHi then ⟨b1.lower, Function.update b1.upper i (b2.upper i)⟩ else b1
    lo ++ (hi ++ boxDiffLoop b2 is b1)

/-- `amrex::complementIn(b1, BoxList{b2})` for a box `b2` that meets `b1` (AMReX): the directions are treated from the last to the first. Serves the model of /repo/include/fub/AMReX/boundary_condition/ReflectiveBoundary.hpp:67-94. -/
def boxDiff (b1 b2 : IndexBox n) : List (IndexBox n) := boxDiffLoop b2 (List.finRange n).reverse b1

/-- `Box::intersects`. Serves the model of /repo/include/fub/AMReX/boundary_condition/ReflectiveBoundary.hpp:79-84. -/
def boxMeets (a b : IndexBox n) : Bool := (List.finRange n).all fun d => decide (max (a.lower d) (b.lower d) < min (a.upper d) (b.upper d))

/-- `amrex::shift(box, dir, s)`. Serves the model of /repo/include/fub/AMReX/boundary_condition/ReflectiveBoundary.hpp:79-84. -/
def boxShift (b : IndexBox n) (dir : Fin n) (s : Int) : IndexBox n :=
  ⟨Function.update b.lower dir (b.lower dir + s), Function.update b.upper dir (b.upper dir + s)⟩

/-- `box & box`, and `ForEachIndex` over the result. Serves the model of /repo/include/fub/AMReX/boundary_condition/ReflectiveBoundary.hpp:67-94. -/
def boxAnd (a b : IndexBox n) : IndexBox n := ⟨fun d => max (a.lower d) (b.lower d), fun d => min (a.upper d) (b.upper d)⟩

/-- The boundary boxes of a side: those that reach the domain when shifted by the ghost width.
/repo/include/fub/AMReX/boundary_condition/ReflectiveBoundary.hpp:79-84, /repo/src/AMReX/boundary_condition/TransmissiveBoundary.cpp:74-78,
/repo/include/fub/AMReX/boundary_condition/ConstantBoundary.hpp:69-74 -/
def sideBoxes (boundaries : List (IndexBox n)) (domain : IndexBox n) (dir : Fin n) (side ngrow : Int) : List (IndexBox n) :=
  boundaries.filter fun b => boxMeets domain (boxShift b dir (getSign side * ngrow))

/-- The pairs (destination, source) of the loop over tiles, boundary boxes and indices. Serves the model of /repo/include/fub/AMReX/boundary_condition/ReflectiveBoundary.hpp:67-94. -/
def ghostCopies (tiles boxes : List (IndexBox n)) (src : IndexBox n → Index n → Index n) : List (Index n × Index n) :=
  tiles.flatMap fun tile => boxes.flatMap fun b => (forEachIndex (boxAnd tile b)).map fun i => (i, src (boxAnd tile b) i)

/-- Perform the copies one after the other in place; `none` if a cell outside of the patch is read or written. Serves the model of /repo/include/fub/AMReX/boundary_condition/ReflectiveBoundary.hpp:67-94. -/
def runCopies (fab : IndexBox n) (f : α → α) : List (Index n × Index n) → (Index n → α) → Option (Index n → α)
  | [], data => some data
  | p :: ps, data =>
    if fab.contains p.1 && fab.contains p.2 then runCopies fab f ps (Function.update data p.1 (f (data p.2))) else none

/-- One patch of a `MultiFab`: its valid box grown by the ghost width in all directions, and the grown tile boxes the loop visits. Serves the model of /repo/include/fub/AMReX/boundary_condition/ReflectiveBoundary.hpp:67-94. -/
structure PatchTiles (n : Nat) where
  fab : IndexBox n
  tiles : List (IndexBox n)

/-- `ReflectiveBoundary::FillBoundary` on one patch; `reflect` is `Reflect(_, _, UnitVector(dir), equation)`.
/repo/include/fub/AMReX/boundary_condition/ReflectiveBoundary.hpp:67-94, /repo/include/fub/boundary_condition/ReflectiveBoundary.hpp:57-69 -/
def reflectiveFill (g : Geom n) (ngrow : Int) (dir : Fin n) (side : Int) (reflect : α → α) (p : PatchTiles n) (data : Index n → α) :
    Option (Index n → α) :=
  let boundaries := boxDiff (g.grown ngrow) g.domain
  runCopies p.fab reflect
    (ghostCopies p.tiles (sideBoxes boundaries g.domain dir side ngrow) fun box i => reflectIndex i box dir side) data

/-- The boundary boxes of the transmissive and of the constant boundary: the complement of the domain that is grown in all directions but `dir`.
/repo/src/AMReX/boundary_condition/TransmissiveBoundary.cpp:63-71, /repo/include/fub/AMReX/boundary_condition/ConstantBoundary.hpp:58-66 -/
def slabBoxes (g : Geom n) (ngrow : Int) (dir : Fin n) (side : Int) : List (IndexBox n) :=
  if g.periodic dir then []
  else
    let fully := g.grown ngrow
    let grownDir : IndexBox n := ⟨Function.update fully.lower dir (fully.lower dir + ngrow), Function.update fully.upper dir (fully.upper dir - ngrow)⟩
    sideBoxes (boxDiff fully grownDir) g.domain dir side ngrow

/-- `TransmissiveBoundary::FillBoundary` on one patch. /repo/src/AMReX/boundary_condition/TransmissiveBoundary.cpp:60-93 -/
def transmissiveFill (g : Geom n) (ngrow : Int) (dir : Fin n) (side : Int) (p : PatchTiles n) (data : Index n → α) : Option (Index n → α) :=
  runCopies p.fab id (ghostCopies p.tiles (slabBoxes g ngrow dir side) fun _ i => mapToSrc i g.domain side dir) data

/-- `ConstantBoundary::FillBoundary` on one patch. /repo/include/fub/AMReX/boundary_condition/ConstantBoundary.hpp:56-85 -/
def constantFill (g : Geom n) (ngrow : Int) (dir : Fin n) (side : Int) (state : α) (p : PatchTiles n) (data : Index n → α) : Option (Index n → α) :=
  runCopies p.fab (fun _ => state) (ghostCopies p.tiles (slabBoxes g ngrow dir side) fun _ i => i) data

/-- `BoundarySet::FillBoundary`: all conditions in the order of the vector. /repo/src/AMReX/boundary_condition/BoundarySet.cpp:25-30 -/
def boundarySetFill (conditions : List ((Index n → α) → Option (Index n → α))) (data : Index n → α) : Option (Index n → α) :=
  conditions.foldlM (fun data c => c data) data

end Fub
