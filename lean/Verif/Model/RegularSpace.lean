import Verif.Model.GridOutput

/-!
# The index spaces of a hierarchy without walls

Model of `/repo/src/AMReX/cutcell/AllRegularIndexSpace.cpp` and of the geometries in the constructor of `PatchHierarchy`
(`/repo/src/AMReX/PatchHierarchy.cpp`). `Box::refine`, `Box::coarsen`, `Box::coarsenable`, `Geometry::refine` and `coarsen` are modelled after AMReX.
Simplification: integers without overflow.
-/

namespace Fub

/-- `Box::refine(ratio)` for boxes of cells. Used at /repo/src/AMReX/PatchHierarchy.cpp:178, /repo/src/AMReX/cutcell/AllRegularIndexSpace.cpp:115 -/
def ABox.refine {n : ℕ} (b : ABox n) (r : Index n) : ABox n := ⟨fun d => b.lo d * r d, fun d => (b.hi d + 1) * r d - 1⟩

/-- `Box::coarsenable(ratio)`: large enough, and coarsening loses nothing. Used at /repo/src/AMReX/cutcell/AllRegularIndexSpace.cpp:49 -/
def ABox.Coarsenable {n : ℕ} (b : ABox n) (r : Index n) : Prop := (∀ d, r d ≤ b.hi d - b.lo d + 1) ∧ (b.coarsen r).refine r = b

instance coarsenableDec {n : ℕ} (b : ABox n) (r : Index n) : Decidable (b.Coarsenable r) :=
  decidable_of_iff ((∀ d, r d ≤ b.hi d - b.lo d + 1) ∧ (∀ d, ((b.coarsen r).refine r).lo d = b.lo d) ∧ ∀ d, ((b.coarsen r).refine r).hi d = b.hi d)
    ⟨fun h => ⟨h.1, ABox.ext (funext h.2.1) (funext h.2.2)⟩, fun h => ⟨h.1, fun d => by rw [h.2], fun d => by rw [h.2]⟩⟩

/-- `amrex::Geometry`: the box of cells and everything that does not depend on the resolution (coordinates, periodicity).
Serves the model of /repo/src/AMReX/PatchHierarchy.cpp:175-179. -/
@[ext] structure Geo (n : ℕ) (X : Type) where
  domain : ABox n
  phys : X
deriving DecidableEq

/-- `Geometry::refine(ratio)`. Used at /repo/src/AMReX/cutcell/AllRegularIndexSpace.cpp:115 -/
def Geo.refine {n : ℕ} {X : Type} (g : Geo n X) (r : Index n) : Geo n X := ⟨g.domain.refine r, g.phys⟩

/-- `coarsen(geometry, ratio)`. Used at /repo/src/AMReX/cutcell/AllRegularIndexSpace.cpp:61-64 -/
def Geo.coarsen {n : ℕ} {X : Type} (g : Geo n X) (r : Index n) : Geo n X := ⟨g.domain.coarsen r, g.phys⟩

/-- One level of an index space: the entries of `geometries_` and `n_grows_` (`domains_` holds the boxes of the geometries).
/repo/include/fub/AMReX/cutcell/AllRegularIndexSpace.hpp:43-46 -/
abbrev SpaceLevel (n : ℕ) (X : Type) := Geo n X × ℤ

/-- The loop over the coarser levels. `ok` tells whether AMReX can build the coarse level, `fuel` is the number of loop passes left, `last` the level built last;
`none` is the call of `Abort`. /repo/src/AMReX/cutcell/AllRegularIndexSpace.cpp:48-79 -/
def regularLevels {n : ℕ} {X : Type} (ok : ℕ → Bool) (r : Index n) (required : ℕ) : ℕ → ℕ → SpaceLevel n X → Option (List (SpaceLevel n X))
  | 0, _, _ => some []
  | fuel + 1, ilev, last =>
    if ¬ last.1.domain.Coarsenable r then
      if ilev ≤ required then none else some []
    else
      let ng := if required < ilev then 0 else last.2 / 2
      let c : SpaceLevel n X := (last.1.coarsen r, ng)
      if ¬ ok ilev then
        if ilev ≤ required then none else some []
      else (regularLevels ok r required fuel (ilev + 1) c).map (c :: ·)

/-- The constructor of `AllRegularIndexSpace`; the finest level comes first. /repo/src/AMReX/cutcell/AllRegularIndexSpace.cpp:27-80 -/
def regularSpace {n : ℕ} {X : Type} (ok : ℕ → Bool) (geom : Geo n X) (r : Index n) (required maxCoarsening : ℕ) (ngrow : ℤ) :
    Option (List (SpaceLevel n X)) :=
  let first : SpaceLevel n X := (geom, max ngrow 0 * 2 ^ required)
  (regularLevels ok r required (min 30 (max required maxCoarsening)) 1 first).map (first :: ·)

/-- The loop of `BuildRegularSpace` from `level` on, with `count` levels left. /repo/src/AMReX/cutcell/AllRegularIndexSpace.cpp:102-118 -/
def buildRegular {n : ℕ} {X : Type} (ok : ℕ → Bool) (r : Index n) : ℕ → ℕ → Geo n X → Option (List (List (SpaceLevel n X)))
  | 0, _, _ => some []
  | count + 1, level, geom =>
    (regularSpace ok geom r level (level + 1) 4).bind fun s => (buildRegular ok r count (level + 1) (geom.refine r)).map (s :: ·)

/-- `getGeometry(domain)`, and the position `getLevel` reads; `none` is an index past the end. /repo/src/AMReX/cutcell/AllRegularIndexSpace.cpp:84-96 -/
def spaceFind {n : ℕ} {X : Type} (s : List (SpaceLevel n X)) (dom : ABox n) : Option (SpaceLevel n X) := s.find? fun l => decide (l.1.domain = dom)

/-- `patch_level_geometry_`: the geometries of the levels of a hierarchy. /repo/src/AMReX/PatchHierarchy.cpp:167-179 -/
def hierarchyGeometries {n : ℕ} {X : Type} (r : Index n) (phys : X) : ℕ → ABox n → List (Geo n X)
  | 0, _ => []
  | count + 1, box => ⟨box, phys⟩ :: hierarchyGeometries r phys count (box.refine r)

/-- The box of the coarsest level for a number of cells in every direction. /repo/src/AMReX/PatchHierarchy.cpp:169-174 -/
def coarseBox {n : ℕ} (cells : Index n) : ABox n := ⟨fun _ => 0, fun d => cells d - 1⟩

end Fub
