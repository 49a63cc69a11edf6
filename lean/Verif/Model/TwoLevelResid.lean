import Verif.Model.TwoLevelRhs
import Verif.Model.NodalHelmLin

/-!
The residual of the pressure equation at the nodes between two refinement levels. Source: `reflux` of `/repo/src/AMReX/MLMG/MLNodeHelmDualCstVel.cpp` and its kernels in `/repo/src/AMReX/MLMG/MLNodeHelmDualCstVel_2D_K.cpp`. The simplifications are those of `Verif.Model.TwoLevelRhs`.
-/

namespace Fub
variable {K : Type} [Field K]

/-- `Axarr` of one grid: `rhs - res` in the inner nodes; on the border `mlndhelm_res_fine_Ax`, which sees the coefficient `sig` of this grid only (and neither the cross coefficients nor the diagonal); zero elsewhere. /repo/src/AMReX/MLMG/MLNodeHelmDualCstVel.cpp:1471-1515, /repo/src/AMReX/MLMG/MLNodeHelmDualCstVel_2D_K.cpp:872-894 -/
def fineAx (dxinv dyinv : K) (f : NBox) (sig rhs res x : ℤ → ℤ → K) (i j : ℤ) : K :=
  let s := onBox f.enclosed sig
  let facx := (1 / 4) * dxinv * dxinv
  let facy := (1 / 4) * dyinv * dyinv
  let fxy := facx + facy
  let fxmy := facx - facy
  let fmxy := facy - facx
  if f.onBorder i j then
    x (i - 1) (j - 1) * fxy * s (i - 1) (j - 1) + x (i + 1) (j - 1) * fxy * s i (j - 1) + x (i - 1) (j + 1) * fxy * s (i - 1) j + x (i + 1) (j + 1) * fxy * s i j
      + x (i - 1) j * fxmy * (s (i - 1) (j - 1) + s (i - 1) j) + x (i + 1) j * fxmy * (s i (j - 1) + s i j)
      + x i (j - 1) * fmxy * (s (i - 1) (j - 1) + s i (j - 1)) + x i (j + 1) * fmxy * (s (i - 1) j + s i j)
      + x i j * (-1) * fxy * (s (i - 1) (j - 1) + s i (j - 1) + s (i - 1) j + s i j)
  else if NBox.has ⟨f.ilo + 1, f.ihi - 1, f.jlo + 1, f.jhi - 1⟩ i j then rhs i j - res i j else 0

/-- `mlndhelm_res_fine_contrib` in the loop over the coarse nodes of one grid. /repo/src/AMReX/MLMG/MLNodeHelmDualCstVel.cpp:1517-1522, /repo/src/AMReX/MLMG/MLNodeHelmDualCstVel_2D_K.cpp:896-913 -/
def resContrib (c : NBox) (msk : ℤ → ℤ → Bool) (ax : ℤ → ℤ → K) (i j : ℤ) : K :=
  let ii := 2 * i
  let jj := 2 * j
  if c.has i j && msk ii jj then
    (1 / 4) * (ax ii jj + (1 / 2) * (ax (ii - 1) jj + ax (ii + 1) jj + ax ii (jj - 1) + ax ii (jj + 1))
      + (1 / 4) * (ax (ii - 1) (jj - 1) + ax (ii + 1) (jj - 1) + ax (ii - 1) (jj + 1) + ax (ii + 1) (jj + 1)))
  else 0

/-- `fine_contrib_on_crse`: the sum over the grids of the fine level. /repo/src/AMReX/MLMG/MLNodeHelmDualCstVel.cpp:1461-1529 -/
def refluxFine (dxinv dyinv : K) (grids : List NBox) (msk : ℤ → ℤ → Bool) (sig rhs res x : ℤ → ℤ → K) (i j : ℤ) : K :=
  (grids.map fun c => resContrib c msk (fineAx dxinv dyinv c.refine2 sig rhs res x) i j).sum

/-- `mlndhelm_res_cf_contrib`: the residual at the nodes between the levels; `fc` is the contribution of the fine level, `res` the residual so far. /repo/src/AMReX/MLMG/MLNodeHelmDualCstVel_2D_K.cpp:915-977 -/
def resCf (dxinv dyinv : K) (nddom : NBox) (bc : Sides LinBC) (dmsk : ℤ → ℤ → Bool) (ccmsk : ℤ → ℤ → ℤ) (sig phi rhs fc res : ℤ → ℤ → K) (i j : ℤ) : K :=
  if !dmsk i j && decide (nodalMask ccmsk i j = 1) then
    rhs i j - (resCfAx sig dxinv dyinv (fun a b => decide (ccmsk a b = 0)) phi i j + fc i j * wallFactor nddom bc i j)
  else res i j

/-- `reflux`: first the restriction of the fine residual is copied to all coarse nodes of the fine grids, then the nodes between the levels are computed. `res0` is the residual of the coarse level. /repo/src/AMReX/MLMG/MLNodeHelmDualCstVel.cpp:1423-1568 -/
def refluxRes (dxinv dyinv fdx fdy : K) (cdom : NBox) (bc : Sides LinBC) (grids : List NBox) (dmsk fmsk : ℤ → ℤ → Bool) (ccmsk : ℤ → ℤ → ℤ)
    (sig phi rhs res0 fsig fphi frhs fres : ℤ → ℤ → K) (i j : ℤ) : K :=
  resCf dxinv dyinv ⟨cdom.ilo, cdom.ihi + 1, cdom.jlo, cdom.jhi + 1⟩ bc dmsk ccmsk sig phi rhs (refluxFine fdx fdy grids fmsk fsig frhs fres fphi)
    (fun a b => if grids.any fun c => c.has a b then nodeRestrict fmsk fres a b else res0 a b) i j

/-- The residual of the fine level with all coefficients. /repo/src/AMReX/MLMG/MLNodeHelmDualCstVel.cpp:790-832 -/
def levelRes (c : HelmCoef ℤ ℤ K) (msk : ℤ → ℤ → Bool) (rhs x : ℤ → ℤ → K) (i j : ℤ) : K := rhs i j - helmApply c msk x i j

end Fub
