import Verif.Model.CutAmr
import Verif.Spec.RegridData

/-!
Specification for levels with embedded walls: amounts of gas count the open part of a cell only.
-/

namespace Fub
variable {n : ℕ} {K : Type} [Field K]

/-- Component `c` of a covered coarse cell times the open volume of its fine cells is the amount in its fine cells: the coarse cell holds the mean over the gas. `al` are the volume fractions of the fine level. -/
def HoldsGasMean (r : Index n) (c : ℕ) (al : Index n → K) (coarse fine : GridLevel n K) : Prop :=
  ∀ I ∈ coarse.cells, childCells r I ⊆ fine.cells → (∑ i ∈ childCells r I, al i) * coarse.val I c = ∑ i ∈ childCells r I, al i * fine.val i c

/-- A relation between the levels `k`, `k + 1`, … where the finer level of a pair comes with its volume fractions. -/
def AllGasPairs (R : (Index n → K) → GridLevel n K → GridLevel n K → Prop) (al : ℕ → Index n → K) : ℕ → GridLevel n K → List (GridLevel n K) → Prop
  | _, _, [] => True
  | k, l, f :: fs => R (al (k + 1)) l f ∧ AllGasPairs R al (k + 1) f fs

/-- The amount of component `c` in the open volume of the cells that are not covered by finer cells. -/
def gasTotal (r : Index n) (c : ℕ) (al : ℕ → Index n → K) : ℕ → K → List (GridLevel n K) → K
  | _, _, [] => 0
  | k, vol, [l] => ∑ I ∈ l.cells, vol * al k I * l.val I c
  | k, vol, l :: f :: fs => (∑ I ∈ l.cells with ¬ childCells r I ⊆ f.cells, vol * al k I * l.val I c) + gasTotal r c al (k + 1) (vol / ∏ d, (r d : K)) (f :: fs)

/-- The volume fractions of all levels describe one geometry: a coarse cell has as much open volume as its fine cells together. -/
def OneGeometry (r : Index n) (al : ℕ → Index n → K) : Prop :=
  ∀ k I, al k I * ∏ d, (r d : K) = ∑ i ∈ childCells r I, al (k + 1) i

end Fub
