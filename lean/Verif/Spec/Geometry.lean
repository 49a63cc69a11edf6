import Verif.Model.Geometry

/-!
# Points, segments and solids
-/

namespace Fub

/-- The Euclidean distance of two points. -/
noncomputable def distP {d : ℕ} (x y : Pt d) : ℝ := Real.sqrt (∑ i, (x i - y i) ^ 2)

/-- The point of the segment from `v` to `w` with parameter `t`. -/
noncomputable def segPoint (v w : Pt 2) (t : ℝ) : Pt 2 := fun i => (1 - t) * v i + t * w i

/-- The edges of a polygonal line: consecutive vertices. -/
def edgesOf (vs : List (Pt 2)) : List (Pt 2 × Pt 2) := vs.zip vs.tail

/-- The horizontal half line that starts in `p` and goes to the left crosses the edge, where the lower end point of an edge does not belong to it. -/
def Crosses (p : Pt 2) (e : Pt 2 × Pt 2) : Prop :=
  min (e.1 1) (e.2 1) < p 1 ∧ ∃ t, 0 ≤ t ∧ t ≤ 1 ∧ segPoint e.1 e.2 t 1 = p 1 ∧ segPoint e.1 e.2 t 0 < p 0

/-- The distance from the axis of a cone (the line through `x0` in the first coordinate direction). -/
noncomputable def axisDistance (x0 p : Pt 3) : ℝ := Real.sqrt ((p 1 - x0 1) ^ 2 + (p 2 - x0 2) ^ 2)

/-- The closed solid cone with base center `x0`. -/
def InCone (x0 : Pt 3) (R h : ℝ) (p : Pt 3) : Prop :=
  0 ≤ p 0 - x0 0 ∧ p 0 - x0 0 ≤ h ∧ axisDistance x0 p ≤ (1 - (p 0 - x0 0) / h) * R

/-- The interior of the cone. -/
def InConeInterior (x0 : Pt 3) (R h : ℝ) (p : Pt 3) : Prop :=
  0 < p 0 - x0 0 ∧ p 0 - x0 0 < h ∧ axisDistance x0 p < (1 - (p 0 - x0 0) / h) * R

end Fub
