import Verif.Spec.NodalHelm
import Verif.Model.TwoLevelRhs
import Mathlib.Algebra.BigOperators.Finprod

/-!
Specification of two refinement levels in the plane, with refinement ratio 2: which cells are covered, sums over the whole plane and bilinear interpolation from the coarse to the fine nodes. Nothing here refers to the way the code computes a right-hand side.
-/

namespace Fub
variable {K : Type} [Field K]

/-- The coarse cell `(i, j)` lies in one of the grids (given by their coarse nodes) of the fine level. -/
def UnderFine (grids : List NBox) (i j : ℤ) : Prop := ∃ c ∈ grids, c.ilo ≤ i ∧ i < c.ihi ∧ c.jlo ≤ j ∧ j < c.jhi

/-- The fine cell `(i, j)` belongs to the fine level: the coarse cell that contains it lies in one of its grids. -/
def FineCell (grids : List NBox) (i j : ℤ) : Prop := UnderFine grids (i / 2) (j / 2)

/-- No cell lies in two grids. -/
def GridsDisjoint (grids : List NBox) : Prop :=
  grids.Pairwise fun c d => ∀ i j : ℤ, ¬((c.ilo ≤ i ∧ i < c.ihi ∧ c.jlo ≤ j ∧ j < c.jhi) ∧ (d.ilo ≤ i ∧ i < d.ihi ∧ d.jlo ≤ j ∧ j < d.jhi))

/-- All four cells around the fine node belong to the fine level. -/
def FineInner (grids : List NBox) (i j : ℤ) : Prop := FineCell grids (i - 1) (j - 1) ∧ FineCell grids i (j - 1) ∧ FineCell grids (i - 1) j ∧ FineCell grids i j

/-- A cell around the fine node belongs to the fine level. -/
def FineNode (grids : List NBox) (i j : ℤ) : Prop := FineCell grids (i - 1) (j - 1) ∨ FineCell grids i (j - 1) ∨ FineCell grids (i - 1) j ∨ FineCell grids i j

/-- The masks belong to the grids: `ccmsk` marks the covered coarse cells, the Dirichlet mask of the fine level its nodes on the border to the coarse level. -/
structure MasksFit (grids : List NBox) (ccmsk : ℤ → ℤ → ℤ) (fmsk : ℤ → ℤ → Bool) : Prop where
  one : ∀ i j, UnderFine grids i j → ccmsk i j = 1
  zero : ∀ i j, ¬UnderFine grids i j → ccmsk i j = 0
  inner : ∀ i j, FineInner grids i j → fmsk i j = false
  border : ∀ i j, FineNode grids i j → ¬FineInner grids i j → fmsk i j = true

open Classical in
/-- Values on the coarse cells which are not covered. -/
noncomputable def coarsePart (grids : List NBox) (f : ℤ → ℤ → K) : ℤ → ℤ → K := fun i j => if UnderFine grids i j then 0 else f i j

open Classical in
/-- Values on the cells of the fine level. -/
noncomputable def finePart (grids : List NBox) (f : ℤ → ℤ → K) : ℤ → ℤ → K := fun i j => if FineCell grids i j then f i j else 0

/-- Sum over the plane. -/
noncomputable def planeSum (f : ℤ → ℤ → K) : K := ∑ᶠ p : ℤ × ℤ, f p.1 p.2

/-- Zero outside a finite set. -/
def FinSupp (f : ℤ → ℤ → K) : Prop := (Function.support fun p : ℤ × ℤ => f p.1 p.2).Finite

/-- Bilinear interpolation of coarse nodal values at a fine node: the mean of the nearest coarse nodes. -/
def bilin (x : ℤ → ℤ → K) (i j : ℤ) : K := (x (i / 2) (j / 2) + x ((i + 1) / 2) (j / 2) + x (i / 2) ((j + 1) / 2) + x ((i + 1) / 2) ((j + 1) / 2)) / 4

/-- Mean of the corners of a cell. -/
def cornerMean (x : ℤ → ℤ → K) (i j : ℤ) : K := (x i j + x (i + 1) j + x i (j + 1) + x (i + 1) (j + 1)) / 4

/-- Work of a velocity and a source against the nodal function `x` in one cell: `r x - u x_x - v x_y`. -/
def cellWork (dxinv dyinv : K) (x u v r : ℤ → ℤ → K) (i j : ℤ) : K := r i j * cornerMean x i j - u i j * cellGradX dxinv x i j - v i j * cellGradY dyinv x i j

end Fub
