import Verif.Model.HGrid

/-!
# Polygons of the cells at an embedded boundary

Sources: /repo/src/AMReX/cutcell/PatchHierarchy.cpp:71-374 (polygons and integration points), 447-505 (storage), /repo/src/CutCellData.cpp:39-90, /repo/include/fub/CutCellData.hpp.

Two space dimensions. Coordinates are exact: the code computes the corners in double precision and everything after that with the exact kernel of CGAL. `CGAL::convex_hull_2`, `CGAL::do_intersect` and `CGAL::intersection` are not
modelled; the functions here give the points whose convex hull is taken, and the area and the centroid of a polygon from its vertices.
-/

namespace Fub

section
variable {K : Type} [Field K] [LinearOrder K]

/-- What AMReX knows about a cell that is cut by a wall: the open fractions of its left and right face in the first and in the second direction, the centre of the wall and the normal (towards the fluid, `GetBoundaryNormal`).
/repo/include/fub/CutCellData.hpp:46-56 -/
structure WallCell (K : Type) where
  bxL : K
  bxR : K
  byL : K
  byR : K
  xB : K × K
  xN : K × K

/-- `dBeta_x`. /repo/src/AMReX/cutcell/PatchHierarchy.cpp:99-99 -/
def WallCell.dx (w : WallCell K) : K := w.bxR - w.bxL

/-- `dBeta_y`. /repo/src/AMReX/cutcell/PatchHierarchy.cpp:100-100 -/
def WallCell.dy (w : WallCell K) : K := w.byR - w.byL

/-- The cell seen from the second direction: `ix` and `iy` change their roles. /repo/src/AMReX/cutcell/PatchHierarchy.cpp:138-139 -/
def WallCell.swap (w : WallCell K) : WallCell K := ⟨w.byL, w.byR, w.bxL, w.bxR, (w.xB.2, w.xB.1), (w.xN.2, w.xN.1)⟩

/-- The two ends `xLL` and `xLR` of the wall. /repo/src/AMReX/cutcell/PatchHierarchy.cpp:102-109 -/
def wallEnds (h : K × K) (w : WallCell K) : (K × K) × (K × K) :=
  ((w.xB.1 - 1 / 2 * w.dy * h.1, w.xB.2 + 1 / 2 * w.dx * h.2), (w.xB.1 + 1 / 2 * w.dy * h.1, w.xB.2 - 1 / 2 * w.dx * h.2))

/-- The corners of a cell with centre `xC`. /repo/src/AMReX/cutcell/PatchHierarchy.cpp:117-121 -/
def cellCorners (h xC : K × K) : List (K × K) :=
  [(xC.1 - 1 / 2 * h.1, xC.2 - 1 / 2 * h.2), (xC.1 + 1 / 2 * h.1, xC.2 + 1 / 2 * h.2), (xC.1 + 1 / 2 * h.1, xC.2 - 1 / 2 * h.2), (xC.1 - 1 / 2 * h.1, xC.2 + 1 / 2 * h.2)]

/-- `GetPolygon`: the points whose convex hull is the polygon of a cell with volume fraction `vol`. A cell with volume fraction one has its centroid in the middle.
/repo/src/AMReX/cutcell/PatchHierarchy.cpp:76-132 -/
def cellPoints (h xC : K × K) (vol : K) (w : WallCell K) : List (K × K) :=
  if vol = 1 then [(xC.1 - 1 / 2 * h.1, xC.2 - 1 / 2 * h.2), (xC.1 - 1 / 2 * h.1, xC.2 + 1 / 2 * h.2), (xC.1 + 1 / 2 * h.1, xC.2 - 1 / 2 * h.2), (xC.1 + 1 / 2 * h.1, xC.2 + 1 / 2 * h.2)]
  else if 0 < vol then
    (wallEnds h w).1 :: (wallEnds h w).2 :: (cellCorners h xC).filter fun x : K × K => decide (w.xN.1 * (w.xB.1 - x.1) + w.xN.2 * (w.xB.2 - x.2) < 0)
  else []

/-- The sign of a number as in `(x > 0) - (x < 0)`. /repo/src/AMReX/cutcell/PatchHierarchy.cpp:158-158 -/
def signOf (x : K) : K := (if 0 < x then 1 else 0) - (if x < 0 then 1 else 0)

/-- The two points `xRL` and `xRR` one cell behind the wall. /repo/src/AMReX/cutcell/PatchHierarchy.cpp:158-171 -/
def behindWall (h : K × K) (w : WallCell K) : (K × K) × (K × K) :=
  ((w.xB.1 - signOf w.dx * h.1, w.xB.2 + 1 / 2 * w.dx * h.2), (w.xB.1 - signOf w.dx * h.1, w.xB.2 - 1 / 2 * w.dx * h.2))

/-- `p - 2 n·(p - x) n`. /repo/src/AMReX/cutcell/PatchHierarchy.cpp:176-177 -/
def mirrorAt (n x p : K × K) : K × K :=
  (p.1 - 2 * (n.1 * (p.1 - x.1) + n.2 * (p.2 - x.2)) * n.1, p.2 - 2 * (n.1 * (p.1 - x.1) + n.2 * (p.2 - x.2)) * n.2)

/-- `GetHGridPolygonAtBoundary` in the first direction: the points whose hull is taken, none if the faces have equal fractions in both directions. /repo/src/AMReX/cutcell/PatchHierarchy.cpp:134-192 -/
def hgridBoundaryX (h : K × K) (w : WallCell K) : List (K × K) :=
  if w.dx = 0 ∧ w.dy = 0 then []
  else [(wallEnds h w).1, (wallEnds h w).2, mirrorAt w.xN (wallEnds h w).1 (behindWall h w).1, mirrorAt w.xN (wallEnds h w).2 (behindWall h w).2]

/-- `GetHGridPolygonInner` in the first direction. /repo/src/AMReX/cutcell/PatchHierarchy.cpp:194-250 -/
def hgridInnerX (h : K × K) (w : WallCell K) : List (K × K) :=
  if w.dx = 0 ∧ w.dy = 0 then []
  else [(w.xB.1 + 1 / 2 * w.dy * h.1, w.xB.2 - 1 / 2 * w.dx * h.2), (w.xB.1 - 1 / 2 * w.dy * h.1, w.xB.2 + 1 / 2 * w.dx * h.2),
    (w.xB.1 + signOf w.dx * h.1, w.xB.2 - 1 / 2 * w.dx * h.2), (w.xB.1 + signOf w.dx * h.1, w.xB.2 + 1 / 2 * w.dx * h.2)]

/-- Exchange of the two coordinates of points. /repo/src/AMReX/cutcell/PatchHierarchy.cpp:138-139 -/
def swapPoints (l : List (K × K)) : List (K × K) := l.map fun x : K × K => (x.2, x.1)

/-- `GetHGridPolygonAtBoundary`; `d` is true for the first direction. /repo/src/AMReX/cutcell/PatchHierarchy.cpp:134-192 -/
def hgridBoundary (d : Bool) (h : K × K) (w : WallCell K) : List (K × K) := if d then hgridBoundaryX h w else swapPoints (hgridBoundaryX (h.2, h.1) w.swap)

/-- `GetHGridPolygonInner`. /repo/src/AMReX/cutcell/PatchHierarchy.cpp:194-250 -/
def hgridInner (d : Bool) (h : K × K) (w : WallCell K) : List (K × K) := if d then hgridInnerX h w else swapPoints (hgridInnerX (h.2, h.1) w.swap)

/-- `GetTotalInnerPolygon`: the points whose hull is taken, if all four polygons have at least three corners. /repo/src/AMReX/cutcell/PatchHierarchy.cpp:339-357 -/
def hgridTotal (h : K × K) (w : WallCell K) : List (K × K) := hgridInner true h w ++ hgridInner false h w ++ hgridBoundary true h w ++ hgridBoundary false h w

end

section
variable {K : Type} [Field K]

/-- The area of a triangle with orientation (`CGAL::Triangle_2::area`). /repo/src/AMReX/cutcell/PatchHierarchy.cpp:263-264 -/
def triArea (a b c : K × K) : K := ((b.1 - a.1) * (c.2 - a.2) - (c.1 - a.1) * (b.2 - a.2)) / 2

/-- `CGAL::centroid(triangle)`. /repo/src/AMReX/cutcell/PatchHierarchy.cpp:265-265 -/
def triCenter (a b c : K × K) : K × K := ((a.1 + b.1 + c.1) / 3, (a.2 + b.2 + c.2) / 3)

/-- The loop of `Centroid`: total area and total of the centres times the areas, from the vertex `p1` on. /repo/src/AMReX/cutcell/PatchHierarchy.cpp:261-272 -/
def fanLoop (ref : K × K) : K × K → List (K × K) → K × K × K → K × K × K
  | _, [], acc => acc
  | p1, p2 :: rest, acc => fanLoop ref p2 rest (acc.1 + triArea ref p1 p2, acc.2.1 + triArea ref p1 p2 * (triCenter ref p1 p2).1, acc.2.2 + triArea ref p1 p2 * (triCenter ref p1 p2).2)

/-- `Centroid(polygon)` for a polygon with at least three vertices; `none` is the failed assertion. /repo/src/AMReX/cutcell/PatchHierarchy.cpp:252-276 -/
def fanCentroid : List (K × K) → Option (K × K)
  | ref :: p1 :: p2 :: rest =>
    let t := fanLoop ref p1 (p2 :: rest) (0, 0, 0)
    some (t.2.1 / t.1, t.2.2 / t.1)
  | _ => none

end

/-! ### Storage of the integration points -/

/-- An entry of the array: a number, or the bits of an index that were copied into it. /repo/src/AMReX/cutcell/PatchHierarchy.cpp:466-470 -/
inductive RawEntry (K : Type) where
  | num (x : K)
  | bits (i : ℤ)

/-- An integration point: volume, centre and cell. /repo/include/fub/CutCellData.hpp:34-43 -/
structure StoredPoint (K : Type) where
  volume : K
  xM : K × K
  idx : ℤ × ℤ

/-- The entries of one integration point. /repo/src/AMReX/cutcell/PatchHierarchy.cpp:457-471 -/
def pointEntry {K : Type} (p : StoredPoint K) (j : ℕ) : RawEntry K :=
  if j = 0 then .num p.volume else if j = 1 then .num p.xM.1 else if j = 2 then .num p.xM.2 else if j = 3 then .bits p.idx.1 else .bits p.idx.2

/-- The loop over the sources of a cell: the entries `5 i, …, 5 i + 4` of component `c` of the array hold point `i`. /repo/src/AMReX/cutcell/PatchHierarchy.cpp:455-471 -/
def storePoints {K : Type} (n : ℕ) (pts : ℕ → StoredPoint K) (old : ℕ → RawEntry K) (c : ℕ) : RawEntry K := if c / 5 < n then pointEntry (pts (c / 5)) (c % 5) else old c

/-- The number of an entry, zero if it holds bits. Serves the model of /repo/src/CutCellData.cpp:44-54. -/
def RawEntry.toNum {K : Type} [Zero K] : RawEntry K → K
  | .num x => x
  | .bits _ => 0

/-- The index in the bits of an entry. Serves the model of /repo/src/CutCellData.cpp:44-54. -/
def RawEntry.toBits {K : Type} : RawEntry K → ℤ
  | .num _ => 0
  | .bits i => i

/-- `GetHGridIntegrationPoints_` for one source. /repo/src/CutCellData.cpp:44-54 -/
def loadPoint {K : Type} [Zero K] (src : ℕ → RawEntry K) (i : ℕ) : StoredPoint K :=
  ⟨(src (i * 5 + 0)).toNum, ((src (i * 5 + 1)).toNum, (src (i * 5 + 2)).toNum), ((src (i * 5 + 3)).toBits, (src (i * 5 + 4)).toBits)⟩

end Fub
