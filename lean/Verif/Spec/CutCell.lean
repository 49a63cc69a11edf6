import Verif.Spec.Gas
import Mathlib.Algebra.Order.Field.Basic

/-!
# Geometry of cut cells
-/

namespace Fub
variable {K : Type} [Field K] [LinearOrder K]

/-- A cell cut by a plane, seen along one direction: `bL`, `bR` are the open fractions of its two faces, `alpha` its volume fraction and `c` the centroid of
the wall in this direction, measured from the centre of the cell in cell widths. The region behind the smaller face is open over the whole width of the
cell, the rest of the larger face is open up to the wall, which is on average at `c`. Cells with different faces have a volume. -/
structure IsPlanarCell (bL bR alpha c : K) : Prop where
  left_nonneg : 0 ≤ bL
  right_nonneg : 0 ≤ bR
  inside : bL ≠ bR → -(1 / 2) ≤ c ∧ c ≤ 1 / 2
  volume_le : bR ≤ bL → alpha = bR + (bL - bR) * (c + 1 / 2) ∨ (bL = bR ∧ alpha = bL)
  volume_ge : bL ≤ bR → alpha = bL + (bR - bL) * (1 / 2 - c) ∨ (bL = bR ∧ alpha = bL)
  volume_pos : bL ≠ bR → 0 < alpha

/-- The face `k` of a line of faces is larger than both of its neighbours. -/
def IsDoublyShielded (beta : Int → K) (k : Int) : Prop := beta (k - 1) < beta k ∧ beta (k + 1) < beta k

/-- Signed area of the wall of the cell between the faces `i` and `i + 1`, seen along the line: positive if the wall stops a flow to the right. It is the
difference of the two faces, but the part of the larger face that is larger than both of its neighbours does not count. -/
def wallArea (beta : Int → K) (i : Int) : K :=
  if beta (i + 1) < beta i then min (beta i) (max (beta (i - 1)) (beta (i + 1))) - beta (i + 1)
  else if beta i < beta (i + 1) then beta i - min (beta (i + 1)) (max (beta i) (beta (i + 1 + 1))) else 0

/-- What `MakeRotation` is for: for unit vectors it is an orthogonal matrix that maps the first vector to the second, and the matrix for the
opposite way is its transpose. -/
def IsRotationMaker {d : ℕ} (rot : (Fin d → ℝ) → (Fin d → ℝ) → Fin d → Fin d → ℝ) : Prop :=
  ∀ a b : Fin d → ℝ, IsUnit' a → IsUnit' b →
    IsOrtho (rot a b) ∧ (∀ i, ∑ j, rot a b i j * a j = b i) ∧ ∀ i j, rot b a i j = rot a b j i

end Fub
