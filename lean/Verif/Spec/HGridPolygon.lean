import Verif.Model.HGridPolygon
import Mathlib.Analysis.Convex.Join
import Mathlib.Data.Real.Basic

/-! # Specification for the polygons of the cells at an embedded boundary -/

namespace Fub

/-- The inner product. -/
def wdot {K : Type} [Field K] (a b : K × K) : K := a.1 * b.1 + a.2 * b.2

/-- The cell with centre `xC` and size `h`. -/
def cellSet (h xC : ℝ × ℝ) : Set (ℝ × ℝ) := {x | |x.1 - xC.1| ≤ h.1 / 2 ∧ |x.2 - xC.2| ≤ h.2 / 2}

/-- The part of the cell in front of the wall through `q` with normal `n` (towards the fluid). -/
def fluidPart (h xC n q : ℝ × ℝ) : Set (ℝ × ℝ) := {x | x ∈ cellSet h xC ∧ 0 ≤ wdot n (x.1 - q.1, x.2 - q.2)}

/-- The wall in the cell is the segment between `P` and `Q`, and the data of the cell belong to it: the centre of the wall is the middle of the segment, the normal is orthogonal to it, and the difference of the open parts of opposite
faces is the projection of the segment (the open surface of the fluid part is closed by the wall). -/
structure IsWallOf (h xC : ℝ × ℝ) (w : WallCell ℝ) (P Q : ℝ × ℝ) : Prop where
  inside : P ∈ cellSet h xC ∧ Q ∈ cellSet h xC
  all : ∀ x ∈ cellSet h xC, wdot w.xN (x.1 - w.xB.1, x.2 - w.xB.2) = 0 → x ∈ segment ℝ P Q
  middle : w.xB = ((P.1 + Q.1) / 2, (P.2 + Q.2) / 2)
  normal : wdot w.xN (P.1 - Q.1, P.2 - Q.2) = 0
  closed : (w.bxR - w.bxL) * h.2 = P.2 - Q.2 ∧ (w.byR - w.byL) * h.1 = Q.1 - P.1

/-- Twice the area of a polygon with orientation, by the sum over its edges. -/
def shoelace {K : Type} [Field K] (l : List (K × K)) : K :=
  ((l.zip (l.rotate 1)).map fun e : (K × K) × (K × K) => e.1.1 * e.2.2 - e.2.1 * e.1.2).sum

/-- The first moments of a polygon (times six) by the sum over its edges. -/
def edgeMoment {K : Type} [Field K] (l : List (K × K)) : K × K :=
  (((l.zip (l.rotate 1)).map fun e : (K × K) × (K × K) => (e.1.1 + e.2.1) * (e.1.1 * e.2.2 - e.2.1 * e.1.2)).sum,
   ((l.zip (l.rotate 1)).map fun e : (K × K) × (K × K) => (e.1.2 + e.2.2) * (e.1.1 * e.2.2 - e.2.1 * e.1.2)).sum)

/-- The component of a point in a direction (`true` is the first one), and its component in the other one. -/
def alongDir {K : Type} (d : Bool) (x : K × K) : K := if d then x.1 else x.2

/-- The wall of length `len` with the unit normal of the cell closes the open surface of the cell. -/
structure ClosedBy {K : Type} [Field K] [LinearOrder K] (h : K × K) (w : WallCell K) (len : K) : Prop where
  pos : 0 < len
  unit : wdot w.xN w.xN = 1
  first : (w.bxR - w.bxL) * h.2 = len * w.xN.1
  second : (w.byR - w.byL) * h.1 = len * w.xN.2

/-- `y` is the mirror image of `x` at the wall through `q` with normal `n`: the middle between them is on the wall and their difference is along the normal. -/
def IsMirrorImage {K : Type} [Field K] (n q x y : K × K) : Prop :=
  wdot n ((x.1 + y.1) / 2 - q.1, (x.2 + y.2) / 2 - q.2) = 0 ∧ ∃ t : K, y.1 - x.1 = t * n.1 ∧ y.2 - x.2 = t * n.2

/-- A trapezoid at the wall: `A` and `B` are on the wall, one wall length apart with the centre of the wall in the middle, and `C` and `D` are level with `A` and `B`, at the distance `s` from the centre of the wall in direction `d`. -/
structure WallTrapezoid {K : Type} [Field K] (d : Bool) (xB n : K × K) (len s : K) (A B C D : K × K) : Prop where
  wall : wdot n (A.1 - xB.1, A.2 - xB.2) = 0 ∧ wdot n (B.1 - xB.1, B.2 - xB.2) = 0
  middle : xB = ((A.1 + B.1) / 2, (A.2 + B.2) / 2)
  length : wdot (A.1 - B.1, A.2 - B.2) (A.1 - B.1, A.2 - B.2) = len ^ 2
  level : alongDir (!d) C = alongDir (!d) A ∧ alongDir (!d) D = alongDir (!d) B
  shift : alongDir d C = alongDir d xB + s ∧ alongDir d D = alongDir d xB + s

end Fub
