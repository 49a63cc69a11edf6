import Verif.Model.IndexBox
import Verif.Model.PatchIntegrator
import Mathlib.Analysis.SpecialFunctions.Exp

/-!
Tubes with a varying cross section: the time integrator with axial areas and the axial source term.

Simplifications: exact numbers instead of `double`; one patch; a cell or face is an integer, a state or a flux is a family of components.
-/

namespace Fub
variable {K ι : Type}

/-! ### `AxialTimeIntegrator` -/

/-- The cells that are updated, first and one past the last: the enclosed cells of the faces of the grown tile box that carry a flux. A box is given by its first
and its last index. /repo/include/fub/AMReX/AxialTimeIntegrator.hpp:149-154 -/
def axialCells (tile fluxBox : Int × Int) : Int × Int :=
  let allFaces := (tile.1, tile.2 + 1)
  let faces := (max allFaces.1 fluxBox.1, min allFaces.2 fluxBox.2)
  (faces.1, faces.2)

/-- The body of the cell loop. `mom` is the component of the axial momentum. /repo/include/fub/AMReX/AxialTimeIntegrator.hpp:165-183 -/
def axialCell [Field K] [DecidableEq ι] (mom : ι) (dtdx : K) (area p : Int → K) (flux : Int → ι → K) (prev : ι → K) (cell : Int) : ι → K :=
  let fL := cell
  let fR := cell + 1
  let aL := area fL
  let aR := area fR
  let ooA := 2 / (aL + aR)
  let next : ι → K := fun i => prev i + dtdx * (aL * flux fL i - aR * flux fR i) * ooA
  let pCenter := 1 / 2 * (p fL + p fR)
  Function.update next mom (next mom + dtdx * (aR - aL) * pCenter * ooA)

/-- `UpdateConservatively` on one patch, in place as it is called for the scratch data.
/repo/include/fub/AMReX/AxialTimeIntegrator.hpp:135-196 -/
def axialUpdate [Field K] [DecidableEq ι] (mom : ι) (dt dx : K) (area p : Int → K) (flux : Int → ι → K) (cells : Int × Int) (u : Int → ι → K) :
    Int → ι → K :=
  (loopRange cells.1 cells.2).foldl (fun u c => Function.update u c (axialCell mom (dt / dx) area p flux (u c) c)) u

/-- The cached areas of one level: the layout of the boxes they were computed for, and one value for every face. Serves the model of /repo/include/fub/AMReX/AxialTimeIntegrator.hpp:107-132. -/
structure AxialCache (B K : Type) where
  layout : B
  area : Int → K

/-- `RecomputeAxIfNeeded` for one level: `layout` stands for the box array, the distribution and the ghost cell width of the interface pressures. `A` is the given area function and
`face` the position of a face (`LoFace`). `none` is a level without cached areas. /repo/include/fub/AMReX/AxialTimeIntegrator.hpp:107-132 -/
def recomputeAx {B : Type} [DecidableEq B] (A : K → K) (face : Int → K) (layout : B) (cache : Option (AxialCache B K)) : AxialCache B K :=
  match cache with
  | some c => if c.layout = layout then c else ⟨layout, fun i => A (face i)⟩
  | none => ⟨layout, fun i => A (face i)⟩

/-! ### `AxialSourceTerm` -/

/-- What `AdvanceLevel` uses of a cell of an ideal gas mixture in a tube. Serves the model of /repo/src/AMReX/AxialSourceTerm.cpp:106-122. -/
@[ext] structure TubeGas (s : ℕ) where
  density : ℝ
  velocity : ℝ
  pressure : ℝ
  fractions : Fin s → ℝ
  gamma : ℝ
  cp : ℝ

/-- `ComputeDiameters`: the two numbers stored for a cell, from the given function and the centers of the cell and of its right neighbour.
/repo/src/AMReX/AxialSourceTerm.cpp:72-75 -/
def tubeGeometry [Field K] (area : K → K) (xM xR dx : K) : K × K := (area (xM + 1 / 2 * dx), (area xR - area xM) / dx)

/-- The update of one cell. The reactor is given density, mass fractions and temperature; `CompleteFromReactor` then computes the pressure from the ideal gas law with the
specific gas constant `R` of the mass fractions, and `gamma`, `cp` from temperature and mass fractions (`caloric`).
/repo/src/AMReX/AxialSourceTerm.cpp:106-122 -/
noncomputable def axialSourceCell {s : ℕ} (R : (Fin s → ℝ) → ℝ) (caloric : (Fin s → ℝ) → ℝ → ℝ × ℝ) (geo : ℝ × ℝ) (dt : ℝ) (q : TubeGas s) : TubeGas s :=
  let dAdx := geo.2
  let A := geo.1
  let Rspec := q.cp - q.cp / q.gamma
  let u := q.velocity
  let uA := u * dAdx / A
  let rho := q.density * Real.exp (-uA * dt)
  let p := q.pressure * Real.exp (-q.gamma * uA * dt)
  let T := p / (Rspec * rho)
  { density := rho, velocity := u, pressure := rho * R q.fractions * T, fractions := q.fractions
    gamma := (caloric q.fractions T).1, cp := (caloric q.fractions T).2 }

/-- The cells `AdvanceLevel` visits on a patch with valid cells `lo, ..., hi`, with the values stored for each of them. The stored values have no ghost cells: `none` is an
access outside of the array. /repo/src/AMReX/AxialSourceTerm.cpp:66-67,100-108 -/
def axialSourceReads [Field K] (area : K → K) (center : Int → K) (dx : K) (lo hi : Int) (ngrow : Nat) : List (Int × Option (K × K)) :=
  (loopRange (lo - ngrow) (hi + 1 + ngrow)).map fun i =>
    (i, if lo ≤ i ∧ i ≤ hi then some (tubeGeometry area (center i) (center (i + 1)) dx) else none)

end Fub
