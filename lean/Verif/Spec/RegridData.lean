import Verif.Model.RegridData

/-!
Specification of the data of a hierarchy: nested grids, coarse cells that are the mean value of their fine cells, and the total amount of a quantity on the cells that are not covered by finer ones.
-/

namespace Fub
variable {n : ℕ} {K : Type}

/-- The fine level consists of whole coarse cells, and these belong to the coarse level. -/
def NestedIn (r : Index n) (coarse fine : GridLevel n K) : Prop :=
  ∀ i ∈ fine.cells, coarsenIdx r i ∈ coarse.cells ∧ childCells r (coarsenIdx r i) ⊆ fine.cells

/-- A relation between every level and the next finer one. -/
def AllPairs (R : GridLevel n K → GridLevel n K → Prop) : GridLevel n K → List (GridLevel n K) → Prop
  | _, [] => True
  | l, f :: fs => R l f ∧ AllPairs R f fs

variable [Field K]

/-- A covered coarse cell holds the mean value of component `c` over its fine cells. -/
def HoldsMean (r : Index n) (c : ℕ) (coarse fine : GridLevel n K) : Prop :=
  ∀ I ∈ coarse.cells, childCells r I ⊆ fine.cells → coarse.val I c = (∑ i ∈ childCells r I, fine.val i c) / ((childCells r I).card : K)

/-- The amount of component `c` in the cells that are not covered by finer cells; `vol` is the volume of a cell of the first level. -/
def compositeTotal (r : Index n) (c : ℕ) : K → List (GridLevel n K) → K
  | _, [] => 0
  | vol, [l] => ∑ I ∈ l.cells, vol * l.val I c
  | vol, l :: f :: fs => (∑ I ∈ l.cells with ¬ childCells r I ⊆ f.cells, vol * l.val I c) + compositeTotal r c (vol / ∏ d, (r d : K)) (f :: fs)

end Fub
