import Verif.Model.NodalHelm

/-!
The nodal Helmholtz operator for piecewise linear velocities, in two dimensions. Source: `/repo/src/AMReX/MLMG/MLNodeHelmDualLinVel_2D_K.cpp`.

Same conventions and simplifications as in `Verif.Model.NodalHelm`. The kernels `mlndhelm_divu`, `mlndhelm_rhcc`, `mlndhelm_mknewu`, `mlndhelm_avgdown_coeff_*`, `mlndhelm_restriction` and `mlndhelm_interpadd_*` are textually the same as those of the other operator, so the definitions `nodeDivu`, `nodeRhcc`, `mkNewU`, ... model them.
-/

namespace Fub

/-- The coefficients of the operator (`m_sigma`, `m_alpha` of one level, `dxinv`). /repo/src/AMReX/MLMG/MLNodeHelmDualLinVel.cpp:801-845 -/
structure LinCoef (I J K : Type) where
  sig : I → J → K
  alp : I → J → K
  dxinv : K
  dyinv : K

section Kernels
variable {I J K : Type} [AddGroupWithOne I] [AddGroupWithOne J] [Field K]

/-- `mlndhelm_adotx_aa`. /repo/src/AMReX/MLMG/MLNodeHelmDualLinVel_2D_K.cpp:342-368 -/
def linApply (c : LinCoef I J K) (msk : I → J → Bool) (x : I → J → K) (i : I) (j : J) : K :=
  if msk i j then 0 else
  let facx := (1 / 8) * c.dxinv * c.dxinv
  let facy := (1 / 8) * c.dyinv * c.dyinv
  let fxy := facx + facy
  let f3xmy := 3 * facx - facy
  let fmx3y := 3 * facy - facx
  x (i - 1) (j - 1) * fxy * c.sig (i - 1) (j - 1)
    + x (i + 1) (j - 1) * fxy * c.sig i (j - 1)
    + x (i - 1) (j + 1) * fxy * c.sig (i - 1) j
    + x (i + 1) (j + 1) * fxy * c.sig i j
    + x (i - 1) j * f3xmy * (c.sig (i - 1) (j - 1) + c.sig (i - 1) j)
    + x (i + 1) j * f3xmy * (c.sig i (j - 1) + c.sig i j)
    + x i (j - 1) * fmx3y * (c.sig (i - 1) (j - 1) + c.sig i (j - 1))
    + x i (j + 1) * fmx3y * (c.sig (i - 1) j + c.sig i j)
    + x i j * (-3) * fxy * (c.sig (i - 1) (j - 1) + c.sig i (j - 1) + c.sig (i - 1) j + c.sig i j)
    + x i j * c.alp i j

/-- The diagonal entry of `mlndhelm_gauss_seidel_aa` (`s0`) and the divisor of `mlndhelm_normalize_aa`. /repo/src/AMReX/MLMG/MLNodeHelmDualLinVel_2D_K.cpp:392-400, 498 -/
def linDiag (c : LinCoef I J K) (i : I) (j : J) : K :=
  let facx := (1 / 8) * c.dxinv * c.dxinv
  let facy := (1 / 8) * c.dyinv * c.dyinv
  let fxy := facx + facy
  (-3) * fxy * (c.sig (i - 1) (j - 1) + c.sig i (j - 1) + c.sig (i - 1) j + c.sig i j) + c.alp i j

/-- `mlndhelm_normalize_aa`. /repo/src/AMReX/MLMG/MLNodeHelmDualLinVel_2D_K.cpp:387-403 -/
def linNormalize (c : LinCoef I J K) (msk : I → J → Bool) (x : I → J → K) (i : I) (j : J) : K :=
  if msk i j then x i j else x i j / linDiag c i j

/-- The divisor of `mlndhelm_jacobi_aa`. /repo/src/AMReX/MLMG/MLNodeHelmDualLinVel_2D_K.cpp:432, 440 -/
def linJacobiDiag (c : LinCoef I J K) (i : I) (j : J) : K :=
  let fac := (-3) * (1 / 8) * (c.dxinv * c.dxinv + c.dyinv * c.dyinv)
  fac * (c.sig (i - 1) (j - 1) + c.sig i (j - 1) + c.sig (i - 1) j + c.sig i j) + c.alp i j

/-- `Fapply` followed by `mlndhelm_jacobi_aa`. /repo/src/AMReX/MLMG/MLNodeHelmDualLinVel_2D_K.cpp:426-443 -/
def linJacobi (c : LinCoef I J K) (msk : I → J → Bool) (rhs sol : I → J → K) (i : I) (j : J) : K :=
  if msk i j then 0 else sol i j + (2 / 3) * (rhs i j - linApply c msk sol i j) / linJacobiDiag c i j

/-- The value `Ax` computed inside of `mlndhelm_gauss_seidel_aa`. /repo/src/AMReX/MLMG/MLNodeHelmDualLinVel_2D_K.cpp:487-507 -/
def linGsAx (c : LinCoef I J K) (sol : I → J → K) (i : I) (j : J) : K :=
  let facx := (1 / 8) * c.dxinv * c.dxinv
  let facy := (1 / 8) * c.dyinv * c.dyinv
  let fxy := facx + facy
  let f3xmy := 3 * facx - facy
  let fmx3y := 3 * facy - facx
  sol (i - 1) (j - 1) * fxy * c.sig (i - 1) (j - 1)
    + sol (i + 1) (j - 1) * fxy * c.sig i (j - 1)
    + sol (i - 1) (j + 1) * fxy * c.sig (i - 1) j
    + sol (i + 1) (j + 1) * fxy * c.sig i j
    + sol (i - 1) j * f3xmy * (c.sig (i - 1) (j - 1) + c.sig (i - 1) j)
    + sol (i + 1) j * f3xmy * (c.sig i (j - 1) + c.sig i j)
    + sol i (j - 1) * fmx3y * (c.sig (i - 1) (j - 1) + c.sig i (j - 1))
    + sol i (j + 1) * fmx3y * (c.sig (i - 1) j + c.sig i j)
    + sol i j * linDiag c i j

/-- The loop body of `mlndhelm_gauss_seidel_aa` at one node. /repo/src/AMReX/MLMG/MLNodeHelmDualLinVel_2D_K.cpp:493-511 -/
def linGsNode [DecidableEq I] [DecidableEq J] (c : LinCoef I J K) (msk : I → J → Bool) (rhs sol : I → J → K) (p : I × J) : I → J → K :=
  fun a b => if a = p.1 ∧ b = p.2 then
      if msk p.1 p.2 then 0 else sol p.1 p.2 + (rhs p.1 p.2 - linGsAx c sol p.1 p.2) / linDiag c p.1 p.2
    else sol a b

/-- `mlndhelm_gauss_seidel_aa` over a sequence of nodes. /repo/src/AMReX/MLMG/MLNodeHelmDualLinVel_2D_K.cpp:481-513 -/
def linGsSweep [DecidableEq I] [DecidableEq J] (c : LinCoef I J K) (msk : I → J → Bool) (rhs : I → J → K) (nodes : List (I × J)) (sol : I → J → K) : I → J → K :=
  nodes.foldl (linGsNode c msk rhs) sol

/-- `mlndhelm_adotx_ha`, as written (`sx` for `sy` in the coefficients of `x(i±1,j)`). /repo/src/AMReX/MLMG/MLNodeHelmDualLinVel_2D_K.cpp:314-340 -/
def linApplyHa (sx sy : I → J → K) (dxinv dyinv : K) (msk : I → J → Bool) (x : I → J → K) (i : I) (j : J) : K :=
  if msk i j then 0 else
  let facx := (1 / 8) * dxinv * dxinv
  let facy := (1 / 8) * dyinv * dyinv
  x (i - 1) (j - 1) * (facx * sx (i - 1) (j - 1) + facy * sy (i - 1) (j - 1))
    + x (i + 1) (j - 1) * (facx * sx i (j - 1) + facy * sy i (j - 1))
    + x (i - 1) (j + 1) * (facx * sx (i - 1) j + facy * sy (i - 1) j)
    + x (i + 1) (j + 1) * (facx * sx i j + facy * sy i j)
    + x (i - 1) j * (3 * facx * (sx (i - 1) (j - 1) + sx (i - 1) j) - facy * (sy (i - 1) (j - 1) + sx (i - 1) j))
    + x (i + 1) j * (3 * facx * (sx i (j - 1) + sx i j) - facy * (sy i (j - 1) + sx i j))
    + x i (j - 1) * (-facx * (sx (i - 1) (j - 1) + sx i (j - 1)) + 3 * facy * (sy (i - 1) (j - 1) + sy i (j - 1)))
    + x i (j + 1) * (-facx * (sx (i - 1) j + sx i j) + 3 * facy * (sy (i - 1) j + sy i j))
    + x i j * (-3) * (facx * (sx (i - 1) (j - 1) + sx i (j - 1) + sx (i - 1) j + sx i j)
        + facy * (sy (i - 1) (j - 1) + sy i (j - 1) + sy (i - 1) j + sy i j))

/-- The divisor of `mlndhelm_normalize_ha`, as written. /repo/src/AMReX/MLMG/MLNodeHelmDualLinVel_2D_K.cpp:375-383 -/
def linNormDiagHa (sx sy : I → J → K) (dxinv dyinv : K) (i : I) (j : J) : K :=
  let facx := (1 / 8) * dxinv * dxinv
  let facy := (1 / 8) * dyinv * dyinv
  (-8) * (facx * (sx (i - 1) (j - 1) + sx i (j - 1) + sx (i - 1) j + sx i j) + facy * (sy (i - 1) (j - 1) + sy i (j - 1) + sy (i - 1) j + sy i j))

/-- The divisor of `mlndhelm_jacobi_ha`. /repo/src/AMReX/MLMG/MLNodeHelmDualLinVel_2D_K.cpp:411-422 -/
def linJacobiDiagHa (sx sy : I → J → K) (dxinv dyinv : K) (i : I) (j : J) : K :=
  let facx := (-3) * (1 / 8) * dxinv * dxinv
  let facy := (-3) * (1 / 8) * dyinv * dyinv
  facx * (sx (i - 1) (j - 1) + sx i (j - 1) + sx (i - 1) j + sx i j) + facy * (sy (i - 1) (j - 1) + sy i (j - 1) + sy (i - 1) j + sy i j)

/-- The part `Ax` of `mlndhelm_res_cf_contrib` that belongs to the cells of the coarse level; `crse` tells for each cell whether it is one. The kernel is the same in both operators. /repo/src/AMReX/MLMG/MLNodeHelmDualLinVel_2D_K.cpp:892-922, /repo/src/AMReX/MLMG/MLNodeHelmDualCstVel_2D_K.cpp:926-956 -/
def resCfAx (sig : I → J → K) (dxinv dyinv : K) (crse : I → J → Bool) (phi : I → J → K) (i : I) (j : J) : K :=
  let facx := (1 / 6) * dxinv * dxinv
  let facy := (1 / 6) * dyinv * dyinv
  (if crse (i - 1) (j - 1) then sig (i - 1) (j - 1) * (facx * (2 * (phi (i - 1) j - phi i j) + (phi (i - 1) (j - 1) - phi i (j - 1)))
      + facy * (2 * (phi i (j - 1) - phi i j) + (phi (i - 1) (j - 1) - phi (i - 1) j))) else 0)
    + (if crse i (j - 1) then sig i (j - 1) * (facx * (2 * (phi (i + 1) j - phi i j) + (phi (i + 1) (j - 1) - phi i (j - 1)))
      + facy * (2 * (phi i (j - 1) - phi i j) + (phi (i + 1) (j - 1) - phi (i + 1) j))) else 0)
    + (if crse (i - 1) j then sig (i - 1) j * (facx * (2 * (phi (i - 1) j - phi i j) + (phi (i - 1) (j + 1) - phi i (j + 1)))
      + facy * (2 * (phi i (j + 1) - phi i j) + (phi (i - 1) (j + 1) - phi (i - 1) j))) else 0)
    + (if crse i j then sig i j * (facx * (2 * (phi (i + 1) j - phi i j) + (phi (i + 1) (j + 1) - phi i (j + 1)))
      + facy * (2 * (phi i (j + 1) - phi i j) + (phi (i + 1) (j + 1) - phi (i + 1) j))) else 0)

end Kernels
end Fub
