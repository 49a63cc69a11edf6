import Verif.Model.IndexBox
import Mathlib.Data.ZMod.Basic
import Mathlib.Algebra.Field.Basic

/-!
The nodal Helmholtz operator of the low Mach number solver in two dimensions. Source: `/repo/src/AMReX/MLMG/MLNodeHelmDualCstVel_2D_K.cpp`.

The kernels read arrays at `(i±1, j±1)`. They are modelled as functions on index types `I`, `J` with a successor: `ℤ` for plain arrays with ghost nodes, `ZMod n` for periodic arrays after their ghost nodes are filled.
A node `(i, j)` touches the cells `(i-1, j-1)`, `(i, j-1)`, `(i-1, j)`, `(i, j)`. Simplifications: exact numbers instead of `double`; one level of refinement (no coarse-fine contributions); the third index is dropped.
-/

namespace Fub

/-- The coefficients of the operator (`m_sigma`, `m_sigmacross`, `m_alpha` of one level, `dxinv`). The coefficients `sig`, `sigc0`, `sigc1` live on cells and `alp` lives on nodes. /repo/src/AMReX/MLMG/MLNodeHelmDualCstVel.cpp:819-828 -/
structure HelmCoef (I J K : Type) where
  sig : I → J → K
  sigc0 : I → J → K
  sigc1 : I → J → K
  alp : I → J → K
  dxinv : K
  dyinv : K

section Kernels
variable {I J K : Type} [AddGroupWithOne I] [AddGroupWithOne J] [Field K]

/-- `mlndhelm_adotx_aa` at an unmasked node. /repo/src/AMReX/MLMG/MLNodeHelmDualCstVel_2D_K.cpp:351-378 -/
def helmStencil (c : HelmCoef I J K) (x : I → J → K) (i : I) (j : J) : K :=
  let facx := (1 / 4) * c.dxinv * c.dxinv
  let facy := (1 / 4) * c.dyinv * c.dyinv
  let facxy := (1 / 4) * c.dxinv * c.dyinv
  let fxy := facx + facy
  let fxmy := facx - facy
  let fmxy := facy - facx
  x (i - 1) (j - 1) * fxy * c.sig (i - 1) (j - 1)
    + x (i + 1) (j - 1) * fxy * c.sig i (j - 1)
    + x (i - 1) (j + 1) * fxy * c.sig (i - 1) j
    + x (i + 1) (j + 1) * fxy * c.sig i j
    + x (i - 1) j * fxmy * (c.sig (i - 1) (j - 1) + c.sig (i - 1) j)
    + x (i + 1) j * fxmy * (c.sig i (j - 1) + c.sig i j)
    + x i (j - 1) * fmxy * (c.sig (i - 1) (j - 1) + c.sig i (j - 1))
    + x i (j + 1) * fmxy * (c.sig (i - 1) j + c.sig i j)
    + x i j * (-1) * fxy * (c.sig (i - 1) (j - 1) + c.sig i (j - 1) + c.sig (i - 1) j + c.sig i j)
    + x (i - 1) (j - 1) * facxy * (c.sigc0 (i - 1) (j - 1) + c.sigc1 (i - 1) (j - 1))
    - x (i + 1) (j - 1) * facxy * (c.sigc0 i (j - 1) + c.sigc1 i (j - 1))
    - x (i - 1) (j + 1) * facxy * (c.sigc0 (i - 1) j + c.sigc1 (i - 1) j)
    + x (i + 1) (j + 1) * facxy * (c.sigc0 i j + c.sigc1 i j)
    + x (i - 1) j * facxy * (-c.sigc0 (i - 1) (j - 1) + c.sigc0 (i - 1) j + c.sigc1 (i - 1) (j - 1) - c.sigc1 (i - 1) j)
    + x (i + 1) j * facxy * (c.sigc0 i (j - 1) - c.sigc0 i j - c.sigc1 i (j - 1) + c.sigc1 i j)
    + x i (j - 1) * facxy * (c.sigc0 (i - 1) (j - 1) - c.sigc0 i (j - 1) - c.sigc1 (i - 1) (j - 1) + c.sigc1 i (j - 1))
    + x i (j + 1) * facxy * (-c.sigc0 (i - 1) j + c.sigc0 i j + c.sigc1 (i - 1) j - c.sigc1 i j)
    + x i j * facxy * (-c.sigc0 (i - 1) (j - 1) + c.sigc0 i (j - 1) + c.sigc0 (i - 1) j - c.sigc0 i j
        - c.sigc1 (i - 1) (j - 1) + c.sigc1 i (j - 1) + c.sigc1 (i - 1) j - c.sigc1 i j)
    + x i j * c.alp i j

/-- `mlndhelm_adotx_aa`: the operator vanishes on masked (Dirichlet) nodes. /repo/src/AMReX/MLMG/MLNodeHelmDualCstVel_2D_K.cpp:342-380 -/
def helmApply (c : HelmCoef I J K) (msk : I → J → Bool) (x : I → J → K) (i : I) (j : J) : K :=
  if msk i j then 0 else helmStencil c x i j

/-- `mlndhelm_adotx_ha`, as written: the coefficient of `x(i±1,j)` reads `sx` where its neighbours read `sy`. /repo/src/AMReX/MLMG/MLNodeHelmDualCstVel_2D_K.cpp:314-340 -/
def helmApplyHa (sx sy : I → J → K) (dxinv dyinv : K) (msk : I → J → Bool) (x : I → J → K) (i : I) (j : J) : K :=
  if msk i j then 0 else
  let facx := (1 / 4) * dxinv * dxinv
  let facy := (1 / 4) * dyinv * dyinv
  x (i - 1) (j - 1) * (facx * sx (i - 1) (j - 1) + facy * sy (i - 1) (j - 1))
    + x (i + 1) (j - 1) * (facx * sx i (j - 1) + facy * sy i (j - 1))
    + x (i - 1) (j + 1) * (facx * sx (i - 1) j + facy * sy (i - 1) j)
    + x (i + 1) (j + 1) * (facx * sx i j + facy * sy i j)
    + x (i - 1) j * (facx * (sx (i - 1) (j - 1) + sx (i - 1) j) - facy * (sy (i - 1) (j - 1) + sx (i - 1) j))
    + x (i + 1) j * (facx * (sx i (j - 1) + sx i j) - facy * (sy i (j - 1) + sx i j))
    + x i (j - 1) * (-facx * (sx (i - 1) (j - 1) + sx i (j - 1)) + facy * (sy (i - 1) (j - 1) + sy i (j - 1)))
    + x i (j + 1) * (-facx * (sx (i - 1) j + sx i j) + facy * (sy (i - 1) j + sy i j))
    + x i j * (-1) * (facx * (sx (i - 1) (j - 1) + sx i (j - 1) + sx (i - 1) j + sx i j)
        + facy * (sy (i - 1) (j - 1) + sy i (j - 1) + sy (i - 1) j + sy i j))

/-- The diagonal entry used by `mlndhelm_gauss_seidel_aa` and `mlndhelm_normalize_aa`. /repo/src/AMReX/MLMG/MLNodeHelmDualCstVel_2D_K.cpp:413-416, 520-523 -/
def helmDiag (c : HelmCoef I J K) (i : I) (j : J) : K :=
  let facx := (1 / 4) * c.dxinv * c.dxinv
  let facy := (1 / 4) * c.dyinv * c.dyinv
  let facxy := (1 / 4) * c.dxinv * c.dyinv
  let fxy := facx + facy
  (-1) * fxy * (c.sig (i - 1) (j - 1) + c.sig i (j - 1) + c.sig (i - 1) j + c.sig i j)
    + facxy * (-c.sigc0 (i - 1) (j - 1) + c.sigc0 i (j - 1) + c.sigc0 (i - 1) j - c.sigc0 i j
        - c.sigc1 (i - 1) (j - 1) + c.sigc1 i (j - 1) + c.sigc1 (i - 1) j - c.sigc1 i j)
    + c.alp i j

/-- The value `Ax` computed inside of `mlndhelm_gauss_seidel_aa`. /repo/src/AMReX/MLMG/MLNodeHelmDualCstVel_2D_K.cpp:524-540 -/
def gsAx (c : HelmCoef I J K) (sol : I → J → K) (i : I) (j : J) : K :=
  let facx := (1 / 4) * c.dxinv * c.dxinv
  let facy := (1 / 4) * c.dyinv * c.dyinv
  let facxy := (1 / 4) * c.dxinv * c.dyinv
  let fxy := facx + facy
  let fxmy := facx - facy
  let fmxy := facy - facx
  sol (i - 1) (j - 1) * fxy * c.sig (i - 1) (j - 1)
    + sol (i + 1) (j - 1) * fxy * c.sig i (j - 1)
    + sol (i - 1) (j + 1) * fxy * c.sig (i - 1) j
    + sol (i + 1) (j + 1) * fxy * c.sig i j
    + sol (i - 1) j * fxmy * (c.sig (i - 1) (j - 1) + c.sig (i - 1) j)
    + sol (i + 1) j * fxmy * (c.sig i (j - 1) + c.sig i j)
    + sol i (j - 1) * fmxy * (c.sig (i - 1) (j - 1) + c.sig i (j - 1))
    + sol i (j + 1) * fmxy * (c.sig (i - 1) j + c.sig i j)
    + sol (i - 1) (j - 1) * facxy * (c.sigc0 (i - 1) (j - 1) + c.sigc1 (i - 1) (j - 1))
    - sol (i + 1) (j - 1) * facxy * (c.sigc0 i (j - 1) + c.sigc1 i (j - 1))
    - sol (i - 1) (j + 1) * facxy * (c.sigc0 (i - 1) j + c.sigc1 (i - 1) j)
    + sol (i + 1) (j + 1) * facxy * (c.sigc0 i j + c.sigc1 i j)
    + sol (i - 1) j * facxy * (-c.sigc0 (i - 1) (j - 1) + c.sigc0 (i - 1) j + c.sigc1 (i - 1) (j - 1) - c.sigc1 (i - 1) j)
    + sol (i + 1) j * facxy * (c.sigc0 i (j - 1) - c.sigc0 i j - c.sigc1 i (j - 1) + c.sigc1 i j)
    + sol i (j - 1) * facxy * (c.sigc0 (i - 1) (j - 1) - c.sigc0 i (j - 1) - c.sigc1 (i - 1) (j - 1) + c.sigc1 i (j - 1))
    + sol i (j + 1) * facxy * (-c.sigc0 (i - 1) j + c.sigc0 i j + c.sigc1 (i - 1) j - c.sigc1 i j)
    + sol i j * helmDiag c i j

/-- The value that `mlndhelm_gauss_seidel_aa` writes to a node. /repo/src/AMReX/MLMG/MLNodeHelmDualCstVel_2D_K.cpp:517-543 -/
def gsValue (c : HelmCoef I J K) (msk : I → J → Bool) (rhs sol : I → J → K) (i : I) (j : J) : K :=
  if msk i j then 0 else sol i j + (rhs i j - gsAx c sol i j) / helmDiag c i j

/-- One pass of the loop body of `mlndhelm_gauss_seidel_aa`. /repo/src/AMReX/MLMG/MLNodeHelmDualCstVel_2D_K.cpp:515-545 -/
def gsNode [DecidableEq I] [DecidableEq J] (c : HelmCoef I J K) (msk : I → J → Bool) (rhs sol : I → J → K) (p : I × J) : I → J → K :=
  fun a b => if a = p.1 ∧ b = p.2 then gsValue c msk rhs sol p.1 p.2 else sol a b

/-- `mlndhelm_gauss_seidel_aa` over a sequence of nodes: every node sees the values already written. /repo/src/AMReX/MLMG/MLNodeHelmDualCstVel_2D_K.cpp:502-546 -/
def gsSweep [DecidableEq I] [DecidableEq J] (c : HelmCoef I J K) (msk : I → J → Bool) (rhs : I → J → K) (nodes : List (I × J)) (sol : I → J → K) : I → J → K :=
  nodes.foldl (gsNode c msk rhs) sol

/-- The divisor of `mlndhelm_jacobi_aa`. /repo/src/AMReX/MLMG/MLNodeHelmDualCstVel_2D_K.cpp:449-450, 458-461 -/
def jacobiDiag (c : HelmCoef I J K) (i : I) (j : J) : K :=
  let fac := (-1) * (1 / 4) * (c.dxinv * c.dxinv + c.dyinv * c.dyinv)
  let facc := (1 / 4) * c.dxinv * c.dyinv
  fac * (c.sig (i - 1) (j - 1) + c.sig i (j - 1) + c.sig (i - 1) j + c.sig i j)
    + facc * (-c.sigc0 (i - 1) (j - 1) + c.sigc0 i (j - 1) + c.sigc0 (i - 1) j - c.sigc0 i j
        - c.sigc1 (i - 1) (j - 1) + c.sigc1 i (j - 1) + c.sigc1 (i - 1) j - c.sigc1 i j)
    + c.alp i j

/-- `Fapply` followed by `mlndhelm_jacobi_aa`: all nodes see the old values. /repo/src/AMReX/MLMG/MLNodeHelmDualCstVel_2D_K.cpp:442-464, /repo/src/AMReX/MLMG/MLNodeHelmDualCstVel.cpp:994-1035 -/
def jacobiSweep (c : HelmCoef I J K) (msk : I → J → Bool) (rhs sol : I → J → K) (i : I) (j : J) : K :=
  if msk i j then 0 else sol i j + (2 / 3) * (rhs i j - helmApply c msk sol i j) / jacobiDiag c i j

/-- `mlndhelm_normalize_aa`. /repo/src/AMReX/MLMG/MLNodeHelmDualCstVel_2D_K.cpp:399-419 -/
def helmNormalize (c : HelmCoef I J K) (msk : I → J → Bool) (x : I → J → K) (i : I) (j : J) : K :=
  if msk i j then x i j else x i j / helmDiag c i j

/-- `mlndhelm_divu`: the divergence of a cell centered vector field on the nodes. /repo/src/AMReX/MLMG/MLNodeHelmDualCstVel_2D_K.cpp:681-697 -/
def nodeDivu (dxinv dyinv : K) (msk : I → J → Bool) (u v : I → J → K) (i : I) (j : J) : K :=
  let facx := (1 / 2) * dxinv
  let facy := (1 / 2) * dyinv
  if msk i j then 0 else
    facx * (-u (i - 1) (j - 1) + u i (j - 1) - u (i - 1) j + u i j)
      + facy * (-v (i - 1) (j - 1) - v i (j - 1) + v (i - 1) j + v i j)

/-- `mlndhelm_rhcc`: a cell centered right-hand side on the nodes. /repo/src/AMReX/MLMG/MLNodeHelmDualCstVel_2D_K.cpp:698-709 -/
def nodeRhcc (msk : I → J → Bool) (r : I → J → K) (i : I) (j : J) : K :=
  if msk i j then 0 else (1 / 4) * (r (i - 1) (j - 1) + r i (j - 1) + r (i - 1) j + r i j)

/-- First component of `mlndhelm_mknewu` applied to `u`. /repo/src/AMReX/MLMG/MLNodeHelmDualCstVel_2D_K.cpp:711-719 -/
def mkNewU (dxinv : K) (sig u p : I → J → K) (i : I) (j : J) : K :=
  u i j - sig i j * ((1 / 2) * dxinv) * (-p i j + p (i + 1) j - p i (j + 1) + p (i + 1) (j + 1))

/-- Second component of `mlndhelm_mknewu` applied to `v`. /repo/src/AMReX/MLMG/MLNodeHelmDualCstVel_2D_K.cpp:711-720 -/
def mkNewV (dyinv : K) (sig v p : I → J → K) (i : I) (j : J) : K :=
  v i j - sig i j * ((1 / 2) * dyinv) * (-p i j - p (i + 1) j + p i (j + 1) + p (i + 1) (j + 1))

/-- `getFluxes`: the kernel `mlndhelm_mknewu` applied to a zero field. /repo/src/AMReX/MLMG/MLNodeHelmDualCstVel.cpp:420-455 -/
def getFluxU (dxinv : K) (sig p : I → J → K) : I → J → K := mkNewU dxinv sig (fun _ _ => 0) p

/-- Second component of `getFluxes`. /repo/src/AMReX/MLMG/MLNodeHelmDualCstVel.cpp:420-455 -/
def getFluxV (dyinv : K) (sig p : I → J → K) : I → J → K := mkNewV dyinv sig (fun _ _ => 0) p

end Kernels

section Transfer
variable {K : Type} [Field K]

/-- The nodes of a box in the order of `amrex::Loop`. Serves the model of /repo/src/AMReX/MLMG/MLNodeHelmDualCstVel_2D_K.cpp:182-189. -/
def boxNodes (ilo ihi jlo jhi : ℤ) : List (ℤ × ℤ) :=
  (loopRange jlo (jhi + 1)).flatMap fun j => (loopRange ilo (ihi + 1)).map fun i => (i, j)

/-- `mlndhelm_avgdown_coeff_x`. /repo/src/AMReX/MLMG/MLNodeHelmDualCstVel_2D_K.cpp:182-189 -/
def avgdownX (fine : ℤ → ℤ → K) (i j : ℤ) : K :=
  let a := fine (2 * i) (2 * j) + fine (2 * i) (2 * j + 1)
  let b := fine (2 * i + 1) (2 * j) + fine (2 * i + 1) (2 * j + 1)
  a * b / (a + b)

/-- `mlndhelm_avgdown_coeff_y`. /repo/src/AMReX/MLMG/MLNodeHelmDualCstVel_2D_K.cpp:191-198 -/
def avgdownY (fine : ℤ → ℤ → K) (i j : ℤ) : K :=
  let a := fine (2 * i) (2 * j) + fine (2 * i + 1) (2 * j)
  let b := fine (2 * i) (2 * j + 1) + fine (2 * i + 1) (2 * j + 1)
  a * b / (a + b)

/-- `mlndhelm_restriction`. /repo/src/AMReX/MLMG/MLNodeHelmDualCstVel_2D_K.cpp:552-568 -/
def nodeRestrict (msk : ℤ → ℤ → Bool) (fine : ℤ → ℤ → K) (i j : ℤ) : K :=
  let ii := i * 2
  let jj := j * 2
  if msk ii jj then 0 else
    (1 / 16) * (fine (ii - 1) (jj - 1) + 2 * fine ii (jj - 1) + fine (ii + 1) (jj - 1)
      + 2 * fine (ii - 1) jj + 4 * fine ii jj + 2 * fine (ii + 1) jj
      + fine (ii - 1) (jj + 1) + 2 * fine ii (jj + 1) + fine (ii + 1) (jj + 1))

/-- `aa_interp_line_x`. /repo/src/AMReX/MLMG/MLNodeHelmDualCstVel_2D_K.cpp:574-581 -/
def interpLineX (crse sig : ℤ → ℤ → K) (i j ic jc : ℤ) : K :=
  let w1 := sig (i - 1) (j - 1) + sig (i - 1) j
  let w2 := sig i (j - 1) + sig i j
  (w1 * crse ic jc + w2 * crse (ic + 1) jc) / (w1 + w2)

/-- `aa_interp_line_y`. /repo/src/AMReX/MLMG/MLNodeHelmDualCstVel_2D_K.cpp:583-590 -/
def interpLineY (crse sig : ℤ → ℤ → K) (i j ic jc : ℤ) : K :=
  let w1 := sig (i - 1) (j - 1) + sig i (j - 1)
  let w2 := sig (i - 1) j + sig i j
  (w1 * crse ic jc + w2 * crse ic (jc + 1)) / (w1 + w2)

/-- `ha_interp_face_xy`; `aa_interp_face_xy` is the case `sigx = sigy`. /repo/src/AMReX/MLMG/MLNodeHelmDualCstVel_2D_K.cpp:592-605, 634-647 -/
def interpFaceXY (crse sigx sigy : ℤ → ℤ → K) (i j ic jc : ℤ) : K :=
  let w1 := sigx (i - 1) (j - 1) + sigx (i - 1) j
  let w2 := sigx i (j - 1) + sigx i j
  let w3 := sigy (i - 1) (j - 1) + sigy i (j - 1)
  let w4 := sigy (i - 1) j + sigy i j
  (w1 * interpLineY crse sigy (i - 1) j ic jc + w2 * interpLineY crse sigy (i + 1) j (ic + 1) jc
    + w3 * interpLineX crse sigx i (j - 1) ic jc + w4 * interpLineX crse sigx i (j + 1) ic (jc + 1)) / (w1 + w2 + w3 + w4)

/-- `mlndhelm_interpadd_ha` and (with `sigx = sigy`) `mlndhelm_interpadd_aa`; `coarsen` rounds down. /repo/src/AMReX/MLMG/MLNodeHelmDualCstVel_2D_K.cpp:607-630, 650-674 -/
def interpAdd (msk : ℤ → ℤ → Bool) (sigx sigy crse fine : ℤ → ℤ → K) (i j : ℤ) : K :=
  if msk i j then fine i j else
  let ic := i / 2
  let jc := j / 2
  if ic * 2 ≠ i ∧ jc * 2 ≠ j then fine i j + interpFaceXY crse sigx sigy i j ic jc
  else if ic * 2 ≠ i then fine i j + interpLineX crse sigx i j ic jc
  else if jc * 2 ≠ j then fine i j + interpLineY crse sigy i j ic jc
  else fine i j + crse ic jc

end Transfer
end Fub
