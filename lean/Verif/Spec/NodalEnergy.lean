import Verif.Spec.NodalWall
import Verif.Spec.NodalHelm
import Mathlib.Algebra.BigOperators.Group.Finset.Basic
import Mathlib.Order.Interval.Finset.Basic
import Mathlib.Data.Int.Interval

/-!
Sums over the nodes and the cells of a rectangular domain, and the fields that fit to its boundary conditions.
-/

namespace Fub
variable {K : Type} [Field K]

/-- Sum over all nodes of the box. -/
def nodeSum (d : NBox) (f : ℤ → ℤ → K) : K := ∑ i ∈ Finset.Icc d.ilo d.ihi, ∑ j ∈ Finset.Icc d.jlo d.jhi, f i j

/-- Sum over all cells between the nodes of the box. -/
def cellSum (d : NBox) (f : ℤ → ℤ → K) : K := ∑ i ∈ Finset.Ico d.ilo d.ihi, ∑ j ∈ Finset.Ico d.jlo d.jhi, f i j

/-- A side is periodic exactly if the opposite side is. -/
def Sides.Paired (bc : Sides LinBC) : Prop := (bc.xlo = .periodic ↔ bc.xhi = .periodic) ∧ (bc.ylo = .periodic ↔ bc.yhi = .periodic)

/-- The field is filled periodically in the periodic directions. -/
def PeriodicField (d : NBox) (bc : Sides LinBC) (f : ℤ → ℤ → K) : Prop :=
  (bc.xlo = .periodic → ∀ i j, f (i + (d.ihi - d.ilo)) j = f i j) ∧ (bc.ylo = .periodic → ∀ i j, f i (j + (d.jhi - d.jlo)) = f i j)

/-- The ghost cells of a cell centered field: filled periodically in the periodic directions, zero beyond walls. -/
def GhostFilled (d : NBox) (bc : Sides LinBC) (u : ℤ → ℤ → K) : Prop :=
  (bc.xlo = .periodic → ∀ b, d.jlo - 1 ≤ b → b ≤ d.jhi → u (d.ilo - 1) b = u (d.ihi - 1) b) ∧
  (bc.ylo = .periodic → ∀ a, d.ilo - 1 ≤ a → a ≤ d.ihi → u a (d.jlo - 1) = u a (d.jhi - 1)) ∧
  ∀ a b, wallZero d bc u a b = u a b

/-- The nodes of a domain of one patch that the patch owns: of two nodes that are the same by periodicity it owns the lower one. -/
def ownMask (d : NBox) (bc : Sides LinBC) (i j : ℤ) : ℤ :=
  if (bc.xlo = .periodic ∧ i = d.ihi) ∨ (bc.ylo = .periodic ∧ j = d.jhi) then 0 else 1

/-- The field is zero on the Dirichlet nodes. -/
def ZeroOnDirichlet (d : NBox) (bc : Sides LinBC) (f : ℤ → ℤ → K) : Prop := ∀ i j, d.Mem i j → OnDirichlet d bc i j → f i j = 0

end Fub
