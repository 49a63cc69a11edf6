import Verif.Model.NodalHelm

/-!
Specification of the nodal operators: the gradient of a nodal function in a cell and the divergence of a cell centered vector field at a node are central differences of the values averaged over the opposite edge of the cell (of the dual cell).
-/

namespace Fub
variable {I J K : Type} [AddGroupWithOne I] [AddGroupWithOne J] [Field K]

/-- x-derivative of a nodal function in the cell `(i, j)` with the corners `(i, j)`, `(i+1, j)`, `(i, j+1)`, `(i+1, j+1)`. -/
def cellGradX (dxinv : K) (x : I → J → K) (i : I) (j : J) : K :=
  ((x (i + 1) j + x (i + 1) (j + 1)) / 2 - (x i j + x i (j + 1)) / 2) * dxinv

/-- y-derivative of a nodal function in the cell `(i, j)`. -/
def cellGradY (dyinv : K) (x : I → J → K) (i : I) (j : J) : K :=
  ((x i (j + 1) + x (i + 1) (j + 1)) / 2 - (x i j + x (i + 1) j) / 2) * dyinv

/-- Divergence of a cell centered vector field at the node `(i, j)`. -/
def nodeDiv (dxinv dyinv : K) (u v : I → J → K) (i : I) (j : J) : K :=
  ((u i (j - 1) + u i j) / 2 - (u (i - 1) (j - 1) + u (i - 1) j) / 2) * dxinv
    + ((v (i - 1) j + v i j) / 2 - (v (i - 1) (j - 1) + v i (j - 1)) / 2) * dyinv

/-- The flux `(σ + cross terms) grad x`. -/
def helmFluxX (c : HelmCoef I J K) (x : I → J → K) (i : I) (j : J) : K :=
  c.sig i j * cellGradX c.dxinv x i j + c.sigc0 i j * cellGradY c.dyinv x i j

/-- Second component of the flux. -/
def helmFluxY (c : HelmCoef I J K) (x : I → J → K) (i : I) (j : J) : K :=
  c.sig i j * cellGradY c.dyinv x i j + c.sigc1 i j * cellGradX c.dxinv x i j

/-- Sum over a periodic grid. -/
def gridSum [Fintype I] [Fintype J] (f : I → J → K) : K := ∑ i, ∑ j, f i j

end Fub
