import Verif.Model.NodalWall

/-!
Specification of the boundary conditions of the nodal pressure equation: mirror images and the number of walls a node lies on.
-/

namespace Fub

/-- The mirror image of a ghost index at the sides with a mirror; other indices are kept. Cells (`off = 0`) are mirrored at the boundary face,
nodes (`off = 1`) at the boundary node. -/
def mirrorIdx (off lo hi : ℤ) (flo fhi : Bool) (i : ℤ) : ℤ :=
  if i = lo - 1 ∧ flo = true then lo + off else if i = hi + 1 ∧ fhi = true then hi - off else i

/-- The number of walls and inflow sides of the domain `d` a node lies on. -/
def wallCount (d : NBox) (bc : Sides LinBC) (i j : ℤ) : ℕ :=
  (if bc.xlo.isWall = true ∧ i = d.ilo then 1 else 0) + (if bc.xhi.isWall = true ∧ i = d.ihi then 1 else 0)
    + (if bc.ylo.isWall = true ∧ j = d.jlo then 1 else 0) + (if bc.yhi.isWall = true ∧ j = d.jhi then 1 else 0)

/-- `b` is a part of `d`. -/
def NBox.Inside (b d : NBox) : Prop := d.ilo ≤ b.ilo ∧ b.ihi ≤ d.ihi ∧ d.jlo ≤ b.jlo ∧ b.jhi ≤ d.jhi

/-- The point is in the box. -/
def NBox.Mem (b : NBox) (i j : ℤ) : Prop := b.ilo ≤ i ∧ i ≤ b.ihi ∧ b.jlo ≤ j ∧ j ≤ b.jhi

instance nboxMemDecidable (b : NBox) (i j : ℤ) : Decidable (b.Mem i j) := by unfold NBox.Mem; infer_instance

/-- `b` is a part of `d` and not empty. -/
def NBox.Tile (b d : NBox) : Prop := b.Inside d ∧ b.ilo ≤ b.ihi ∧ b.jlo ≤ b.jhi

variable {K : Type} [Field K]

/-- A cell centered field whose ghost values beyond walls and inflows are set to zero; `d` is the box of the nodes of the domain. -/
def wallZero (d : NBox) (bc : Sides LinBC) (u : ℤ → ℤ → K) (i j : ℤ) : K :=
  if (i < d.ilo ∧ bc.xlo.isWall = true) ∨ (d.ihi ≤ i ∧ bc.xhi.isWall = true) ∨ (j < d.jlo ∧ bc.ylo.isWall = true) ∨ (d.jhi ≤ j ∧ bc.yhi.isWall = true)
  then 0 else u i j

/-- The cells between the nodes of a box. -/
def NBox.cells (d : NBox) : NBox := ⟨d.ilo, d.ihi - 1, d.jlo, d.jhi - 1⟩

/-- The node lies on a side with a Dirichlet condition. -/
def OnDirichlet (d : NBox) (bc : Sides LinBC) (i j : ℤ) : Prop :=
  (bc.xlo = .dirichlet ∧ i = d.ilo) ∨ (bc.xhi = .dirichlet ∧ i = d.ihi) ∨ (bc.ylo = .dirichlet ∧ j = d.jlo) ∨ (bc.yhi = .dirichlet ∧ j = d.jhi)

end Fub
