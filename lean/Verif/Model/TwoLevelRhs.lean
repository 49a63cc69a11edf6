import Verif.Model.NodalWall

/-!
The right-hand side of the pressure equation on two refinement levels. Source: `compRHS` of `/repo/src/AMReX/MLMG/MLNodeHelmDualCstVel.cpp` and its kernels in `/repo/src/AMReX/MLMG/MLNodeHelmDualCstVel_2D_K.cpp`.

A grid of the fine level is given by its coarse node box `c`, the code refines it. Arrays are functions on all indices. Simplifications: exact numbers, two levels with refinement ratio 2 (the code fixes it), one tile per grid, the parallel sum is a sum over the list of grids without periodic images.
-/

namespace Fub
variable {K : Type}

/-- `amrex::refine(cvbx, 2)` for a node box. Serves the model of /repo/src/AMReX/MLMG/MLNodeHelmDualCstVel.cpp:237-240. -/
def NBox.refine2 (c : NBox) : NBox := ⟨2 * c.ilo, 2 * c.ihi, 2 * c.jlo, 2 * c.jhi⟩

/-- `amrex::enclosedCells` of a node box. Serves the model of /repo/src/AMReX/MLMG/MLNodeHelmDualCstVel.cpp:242-243. -/
def NBox.enclosed (b : NBox) : NBox := ⟨b.ilo, b.ihi - 1, b.jlo, b.jhi - 1⟩

/-- The node lies on the border of the box: `fvbx.contains(iv) and !fvbx.strictly_contains(iv)`. Serves the model of /repo/src/AMReX/MLMG/MLNodeHelmDualCstVel_2D_K.cpp:727,748,769. -/
def NBox.onBorder (b : NBox) (i j : ℤ) : Bool := b.has i j && !(NBox.has ⟨b.ilo + 1, b.ihi - 1, b.jlo + 1, b.jhi - 1⟩ i j)

/-- The box `b` of cells whose velocity is taken: the valid cells, extended across the sides with inflow. The fine indices are compared with the domain `cdom` of the coarse level. /repo/src/AMReX/MLMG/MLNodeHelmDualCstVel.cpp:245-261 -/
def velocityBox (f : NBox) (cdom : NBox) (bc : Sides LinBC) : NBox :=
  let b := f.enclosed
  ⟨if bc.xlo == .inflow && decide (b.ilo = cdom.ilo) then b.ilo - 1 else b.ilo,
   if bc.xhi == .inflow && decide (b.ihi = cdom.ihi) then b.ihi + 1 else b.ihi,
   if bc.ylo == .inflow && decide (b.jlo = cdom.jlo) then b.jlo - 1 else b.jlo,
   if bc.yhi == .inflow && decide (b.jhi = cdom.jhi) then b.jhi + 1 else b.jhi⟩

section Field
variable [Field K]

/-- The values in a box of cells, zero outside. /repo/src/AMReX/MLMG/MLNodeHelmDualCstVel.cpp:274-281,311-318 -/
def onBox (b : NBox) (f : ℤ → ℤ → K) : ℤ → ℤ → K := fun i j => if b.has i j then f i j else 0

/-- `rarr` of one grid: the divergence `rhs` of the fine level in the inner nodes; on the border `mlndhelm_divu_compute_fine_contrib`, which sees the velocity of this grid only; zero elsewhere. /repo/src/AMReX/MLMG/MLNodeHelmDualCstVel.cpp:267-292, /repo/src/AMReX/MLMG/MLNodeHelmDualCstVel_2D_K.cpp:721-734 -/
def fineRh (dxinv dyinv : K) (f b : NBox) (rhs u v : ℤ → ℤ → K) (i j : ℤ) : K :=
  let u' := onBox b u
  let v' := onBox b v
  let facx := (1 / 2) * dxinv
  let facy := (1 / 2) * dyinv
  if f.onBorder i j then facx * (-u' (i - 1) (j - 1) + u' i (j - 1) - u' (i - 1) j + u' i j) + facy * (-v' (i - 1) (j - 1) - v' i (j - 1) + v' (i - 1) j + v' i j)
  else if NBox.has ⟨f.ilo + 1, f.ihi - 1, f.jlo + 1, f.jhi - 1⟩ i j then rhs i j else 0

/-- `mlndhelm_divu_add_fine_contrib`: what one grid adds to the coarse node `(i, j)`; `msk` is the Dirichlet mask of the fine level. /repo/src/AMReX/MLMG/MLNodeHelmDualCstVel_2D_K.cpp:736-755 -/
def fineContrib (f : NBox) (msk : ℤ → ℤ → Bool) (frh : ℤ → ℤ → K) (i j : ℤ) : K :=
  let ii := 2 * i
  let jj := 2 * j
  if f.onBorder ii jj && msk ii jj then
    (1 / 4) * (frh ii jj + (1 / 2) * (frh (ii - 1) jj + frh (ii + 1) jj + frh ii (jj - 1) + frh ii (jj + 1))
      + (1 / 4) * (frh (ii - 1) (jj - 1) + frh (ii + 1) (jj - 1) + frh (ii - 1) (jj + 1) + frh (ii + 1) (jj + 1)))
  else 0

/-- `mlndhelm_rhcc_fine_contrib`: the same for a cell centered right-hand side. /repo/src/AMReX/MLMG/MLNodeHelmDualCstVel_2D_K.cpp:757-776 -/
def rhccContrib (f : NBox) (msk : ℤ → ℤ → Bool) (cc : ℤ → ℤ → K) (i j : ℤ) : K :=
  let ii := 2 * i
  let jj := 2 * j
  if f.onBorder ii jj && msk ii jj then
    (9 / 64) * (cc (ii - 1) (jj - 1) + cc ii (jj - 1) + cc (ii - 1) jj + cc ii jj)
      + (3 / 64) * (cc (ii - 2) (jj - 1) + cc (ii + 1) (jj - 1) + cc (ii - 2) jj + cc (ii + 1) jj
        + cc (ii - 1) (jj - 2) + cc ii (jj - 2) + cc (ii - 1) (jj + 1) + cc ii (jj + 1))
      + (1 / 64) * (cc (ii - 2) (jj - 2) + cc (ii + 1) (jj - 2) + cc (ii - 2) (jj + 1) + cc (ii + 1) (jj + 1))
  else 0

/-- `crhs`: the contributions of all grids of the fine level to the coarse nodes. `rhs` is the divergence on the fine level, `r` its cell centered right-hand side (zero if there is none). /repo/src/AMReX/MLMG/MLNodeHelmDualCstVel.cpp:213-327,340-342 -/
def fineSum (dxinv dyinv : K) (cdom : NBox) (bc : Sides LinBC) (grids : List NBox) (msk : ℤ → ℤ → Bool) (u v r : ℤ → ℤ → K) (i j : ℤ) : K :=
  (grids.map fun c =>
    fineContrib c.refine2 msk (fineRh dxinv dyinv c.refine2 (velocityBox c.refine2 cdom bc) (nodeDivu dxinv dyinv msk u v) u v) i j
      + rhccContrib c.refine2 msk (onBox c.refine2.enclosed r) i j).sum

/-- The factor for nodes on walls. /repo/src/AMReX/MLMG/MLNodeHelmDualCstVel_2D_K.cpp:804-818 -/
def wallFactor (nddom : NBox) (bc : Sides LinBC) (i j : ℤ) : K :=
  (if (decide (i = nddom.ilo) && bc.xlo.isWall) || (decide (i = nddom.ihi) && bc.xhi.isWall) then 2 else 1)
    * (if (decide (j = nddom.jlo) && bc.ylo.isWall) || (decide (j = nddom.jhi) && bc.yhi.isWall) then 2 else 1)

/-- `mlndhelm_divu_cf_contrib`: the nodes between the levels get the contributions `fc` of the fine level and those of the coarse cells which are not under the fine level (`ccmsk = 0`). /repo/src/AMReX/MLMG/MLNodeHelmDualCstVel_2D_K.cpp:778-822 -/
def cfDivu (dxinv dyinv : K) (nddom : NBox) (bc : Sides LinBC) (dmsk : ℤ → ℤ → Bool) (ccmsk : ℤ → ℤ → ℤ) (fc u v r rhs : ℤ → ℤ → K) (i j : ℤ) : K :=
  if !dmsk i j && decide (nodalMask ccmsk i j = 1) then
    let facx := (1 / 2) * dxinv
    let facy := (1 / 2) * dyinv
    (fc i j
      + (1 / 4) * ((1 - ccmsk (i - 1) (j - 1)) * r (i - 1) (j - 1) + (1 - ccmsk i (j - 1)) * r i (j - 1)
          + (1 - ccmsk (i - 1) j) * r (i - 1) j + (1 - ccmsk i j) * r i j)
      + ((1 - ccmsk (i - 1) (j - 1)) * (-facx * u (i - 1) (j - 1) - facy * v (i - 1) (j - 1))
        + (1 - ccmsk i (j - 1)) * (facx * u i (j - 1) - facy * v i (j - 1))
        + (1 - ccmsk (i - 1) j) * (-facx * u (i - 1) j + facy * v (i - 1) j)
        + (1 - ccmsk i j) * (facx * u i j + facy * v i j))) * wallFactor nddom bc i j
  else rhs i j

/-- A level on its own: divergence plus cell centered right-hand side. /repo/src/AMReX/MLMG/MLNodeHelmDualCstVel.cpp:180-210,329-334 -/
def levelRhs (dxinv dyinv : K) (msk : ℤ → ℤ → Bool) (u v r : ℤ → ℤ → K) (i j : ℤ) : K := nodeDivu dxinv dyinv msk u v i j + nodeRhcc msk r i j

/-- `compRHS` on two levels, the result on the coarse level. `fdx`, `fdy`, `fmsk`, `fu`, `fv`, `fr` belong to the fine level. Walls are only treated at the nodes between the levels (elsewhere see C185). /repo/src/AMReX/MLMG/MLNodeHelmDualCstVel.cpp:136-390 -/
def compRhs2 (dxinv dyinv fdx fdy : K) (cdom : NBox) (bc : Sides LinBC) (grids : List NBox) (dmsk fmsk : ℤ → ℤ → Bool) (ccmsk : ℤ → ℤ → ℤ)
    (u v r fu fv fr : ℤ → ℤ → K) (i j : ℤ) : K :=
  cfDivu dxinv dyinv ⟨cdom.ilo, cdom.ihi + 1, cdom.jlo, cdom.jhi + 1⟩ bc dmsk ccmsk (fineSum fdx fdy cdom bc grids fmsk fu fv fr) u v r
    (levelRhs dxinv dyinv dmsk u v r) i j

/-- The coarse right-hand side after `restrictInteriorNodes`: the nodes inside the fine level get the restriction of the fine right-hand side. /repo/src/AMReX/MLMG/MLNodeHelmDualCstVel.cpp:733-816 -/
def compositeRhs (dxinv dyinv fdx fdy : K) (cdom : NBox) (bc : Sides LinBC) (grids : List NBox) (dmsk fmsk : ℤ → ℤ → Bool) (ccmsk : ℤ → ℤ → ℤ)
    (u v r fu fv fr : ℤ → ℤ → K) (i j : ℤ) : K :=
  if nodalMask ccmsk i j = 2 then nodeRestrict fmsk (levelRhs fdx fdy fmsk fu fv fr) i j
  else compRhs2 dxinv dyinv fdx fdy cdom bc grids dmsk fmsk ccmsk u v r fu fv fr i j

end Field
end Fub
