import Verif.Model.MdLimiter
import Verif.Model.CutCell

/-!
Model of the second order cut-cell method: the reconstruction of states on cells of full width next to faces and walls (the "h-grid") and the stabilised fluxes built from them.
/repo/include/fub/cutcell_method/HGridReconstruction.hpp, /repo/include/fub/cutcell_method/HGridReconstruction2.hpp, /repo/include/fub/cutcell_method/MyStabilisation.hpp,
/repo/src/cutcell_method/MyStabilisation.cpp, /repo/src/CutCellData.cpp.
Two dimensions, exact arithmetic. A field is one component of the variables in which gradients are taken; the conversions to and from complete states are the identity on them (simplified).
Directions are booleans, `true` for the first axis.
-/

namespace Fub

section
variable {K : Type} [Field K]

/-- `Eigen::Matrix<double, Rank, 1>::Unit(d)`. Serves the model of /repo/include/fub/cutcell_method/HGridReconstruction.hpp:656-699. -/
def unit2 (d : Bool) : K × K := if d then (1, 0) else (0, 1)

/-- The entry of a vector that belongs to a direction. Serves the model of /repo/include/fub/cutcell_method/HGridReconstruction.hpp:656-699. -/
def along {α : Type} (d : Bool) (v : α × α) : α := if d then v.1 else v.2

/-- `Shift(index, dir, k)`. /repo/include/fub/PatchDataView.hpp:33-57 -/
def shift2 (d : Bool) (k : ℤ) (i : ℤ × ℤ) : ℤ × ℤ := if d then (i.1 + k, i.2) else (i.1, i.2 + k)

/-- A field with its gradients. Serves the model of /repo/include/fub/cutcell_method/HGridReconstruction.hpp:13-32, 682-698. -/
structure GradField (K : Type) where
  val : ℤ × ℤ → K
  gx : ℤ × ℤ → K
  gy : ℤ × ℤ → K

/-- The gradient in a direction. Serves the model of /repo/include/fub/cutcell_method/HGridReconstruction.hpp:656-699. -/
def GradField.grad (f : GradField K) (d : Bool) (i : ℤ × ℤ) : K := if d then f.gx i else f.gy i

/-- `ApplyGradient` from the centroid of a cell to a point and the addition to the state. /repo/include/fub/cutcell_method/HGridReconstruction.hpp:13-32, 682-698 -/
def extrapolate (g : EbGeom K) (dx : K × K) (f : GradField K) (i : ℤ × ℤ) (x : K × K) : K :=
  f.val i + (f.gx i * (x.1 - (absCentroid g dx i.1 i.2).1) + f.gy i * (x.2 - (absCentroid g dx i.1 i.2).2))

/-- `ReconstructRegularStencil` around the point `xM` of the face: the two states and their gradients. /repo/include/fub/cutcell_method/HGridReconstruction.hpp:656-699 -/
def regularStencil (g : EbGeom K) (dx : K × K) (f : GradField K) (d : Bool) (face : ℤ × ℤ) (xM : K × K) : (K × K) × (K × K) :=
  let iL := shift2 d (-1) face
  let iR := face
  let xL := (xM.1 - 1 / 2 * along d dx * (unit2 d).1, xM.2 - 1 / 2 * along d dx * (unit2 d).2)
  let xR := (xM.1 + 1 / 2 * along d dx * (unit2 d).1, xM.2 + 1 / 2 * along d dx * (unit2 d).2)
  ((extrapolate g dx f iL xL, f.grad d iL), (extrapolate g dx f iR xR, f.grad d iR))

variable [LinearOrder K]

/-- `face_fractions[d]`. Serves the model of /repo/include/fub/cutcell_method/HGridReconstruction2.hpp:259-398. -/
def faceFrac (g : EbGeom K) (d : Bool) (i : ℤ × ℤ) : K := if d then g.faceX i.1 i.2 else g.faceY i.1 i.2

/-- `HGridReconstruction2::ReconstructSinglyShieldedStencil`: the states and gradients left and right of a shielded face part, from the states at the wall `eb` (left and right, with gradients); `none` if neither face is smaller (the outputs are then left as they are).
/repo/include/fub/cutcell_method/HGridReconstruction2.hpp:259-398 -/
def shieldedStencil (g : EbGeom K) (dx : K × K) (f : GradField K) (d : Bool) (cell : ℤ × ℤ) (eb : (K × K) × (K × K)) : Option ((K × K) × (K × K)) :=
  let h := along d dx
  let betaL := faceFrac g d cell
  let betaR := faceFrac g d (shift2 d 1 cell)
  let xB := absBoundary g dx cell.1 cell.2
  let e : K × K := unit2 d
  if betaL < betaR then
    let alpha := 1 / 2 - along d (g.bc cell.1 cell.2)
    let iR := shift2 d 1 cell
    let qi := extrapolate g dx f iR (xB.1 + (alpha + 1 / 2) * h * e.1, xB.2 + (alpha + 1 / 2) * h * e.2)
    let qR := (1 - alpha) * (eb.2.1 + 1 / 2 * alpha * h * eb.2.2) + alpha * (qi + 1 / 2 * (1 - alpha) * h * f.grad d iR)
    let dR := (1 - alpha) * eb.2.2 + alpha * f.grad d iR
    let qc := extrapolate g dx f cell (xB.1 + 1 / 2 * alpha * h * e.1, xB.2 + 1 / 2 * alpha * h * e.2)
    let qL := (1 - alpha) * (eb.1.1 + 1 / 2 * alpha * h * eb.1.2) + alpha * qc
    let dL := (1 - alpha) * eb.1.2 + alpha * f.grad d cell
    some ((qL, dL), (qR, dR))
  else if betaR < betaL then
    let alpha := 1 / 2 + along d (g.bc cell.1 cell.2)
    let iL := shift2 d (-1) cell
    let qi := extrapolate g dx f iL (xB.1 - (alpha + 1 / 2) * h * e.1, xB.2 - (alpha + 1 / 2) * h * e.2)
    let qL := (1 - alpha) * (eb.1.1 - 1 / 2 * alpha * h * eb.1.2) + alpha * (qi - 1 / 2 * (1 - alpha) * h * f.grad d iL)
    let dL := (1 - alpha) * eb.1.2 + alpha * f.grad d iL
    let qc := extrapolate g dx f cell (xB.1 - 1 / 2 * alpha * h * e.1, xB.2 - 1 / 2 * alpha * h * e.2)
    let qR := (1 - alpha) * (eb.2.1 - 1 / 2 * alpha * h * eb.2.2) + alpha * qc
    let dR := (1 - alpha) * eb.2.2 + alpha * f.grad d cell
    some ((qL, dL), (qR, dR))
  else none

omit [LinearOrder K] in
/-- A linear function of the plane with a scalar (density, pressure) and a vector part (velocity, momentum): value at `x0` and derivatives. `LinearFunctional`, /repo/include/fub/cutcell_method/HGridReconstruction2.hpp:9-38 -/
structure LinState (K : Type) where
  x0 : K × K
  s : K
  sx : K
  sy : K
  m : K × K
  mx : K × K
  my : K × K

/-- `LinearFunctional::EvalAt`, scalar part. /repo/include/fub/cutcell_method/HGridReconstruction2.hpp:19-27 -/
def LinState.evalS (r : LinState K) (x : K × K) : K := r.s + (r.sx * (x.1 - r.x0.1) + r.sy * (x.2 - r.x0.2))

/-- `LinearFunctional::EvalAt`, vector part. /repo/include/fub/cutcell_method/HGridReconstruction2.hpp:19-27 -/
def LinState.evalM (r : LinState K) (x : K × K) : K × K :=
  (r.m.1 + (r.mx.1 * (x.1 - r.x0.1) + r.my.1 * (x.2 - r.x0.2)), r.m.2 + (r.mx.2 * (x.1 - r.x0.1) + r.my.2 * (x.2 - r.x0.2)))

/-- `e - 2 (e · n) n`, also the effect of `Reflect` on the vector part. /repo/include/fub/cutcell_method/HGridReconstruction2.hpp:188, 212 -/
def reflect2 (v n : K × K) : K × K := (v.1 - 2 * (v.1 * n.1 + v.2 * n.2) * n.1, v.2 - 2 * (v.1 * n.1 + v.2 * n.2) * n.2)

/-- A state with its gradient in the direction of the split. Serves the model of /repo/include/fub/cutcell_method/HGridReconstruction2.hpp:145-257. -/
structure SideState (K : Type) where
  s : K
  m : K × K
  ds : K
  dm : K × K

/-- `HGridReconstruction2::ReconstructEmbeddedBoundaryStencil`: the states left and right of the wall; `none` if both faces are equal (both states are then left as they are).
/repo/include/fub/cutcell_method/HGridReconstruction2.hpp:145-257 -/
def ebStencil (r : LinState K) (xB n : K × K) (h : K) (d : Bool) (betaL betaR : K) : Option (SideState K × SideState K) :=
  let e : K × K := unit2 d
  let er := reflect2 e n
  let gradS : K := if d then r.sx else r.sy
  let gradM : K × K := if d then r.mx else r.my
  let bndS := r.sx * er.1 + r.sy * er.2
  let bndM := (r.mx.1 * er.1 + r.my.1 * er.2, r.mx.2 * er.1 + r.my.2 * er.2)
  if betaL < betaR then
    let xR := (xB.1 + 1 / 2 * h * e.1, xB.2 + 1 / 2 * h * e.2)
    let xL := (xB.1 - 1 / 2 * h * er.1, xB.2 - 1 / 2 * h * er.2)
    some (⟨r.evalS xL, reflect2 (r.evalM xL) n, bndS, bndM⟩, ⟨r.evalS xR, r.evalM xR, gradS, gradM⟩)
  else if betaR < betaL then
    let xL := (xB.1 - 1 / 2 * h * e.1, xB.2 - 1 / 2 * h * e.2)
    let xR := (xB.1 + 1 / 2 * h * er.1, xB.2 + 1 / 2 * h * er.2)
    some (⟨r.evalS xL, r.evalM xL, gradS, gradM⟩, ⟨r.evalS xR, reflect2 (r.evalM xR) n, bndS, bndM⟩)
  else none

/-- One source of an integral over a cell next to the wall: volume, centroid, cell. `HGridIntegrationPoints`, /repo/include/fub/CutCellData.hpp:34-44 -/
structure IntPoint (K : Type) where
  volume : K
  xM : K × K
  idx : ℤ × ℤ

/-- `Centroid(integration)`. /repo/src/CutCellData.cpp:72-88 -/
def intCentroid (pts : List (IntPoint K)) : K × K :=
  let used := pts.takeWhile fun p => decide (p.volume > 0)
  ((used.map fun p => p.volume * p.xM.1).sum / (used.map fun p => p.volume).sum, (used.map fun p => p.volume * p.xM.2).sum / (used.map fun p => p.volume).sum)

/-- The outcome of `IntegrateCellState`: no volume (nothing is written), a source outside of the data (only zero gradients are written), or a mean value with gradients. Serves the model of /repo/include/fub/cutcell_method/HGridReconstruction.hpp:316-358, 386-433. -/
inductive IntResult (K : Type) where
  | noVolume
  | outside
  | ok (v dx dy : K)
  deriving DecidableEq

/-- `HGridIntegration::IntegrateCellState` for one component. The gradient in the second direction is accumulated from the first one, as in the code.
/repo/include/fub/cutcell_method/HGridReconstruction.hpp:316-358, 386-433 -/
def integrateCellState (g : EbGeom K) (dx : K × K) (f : GradField K) (inBox : ℤ × ℤ → Bool) (pts : List (IntPoint K)) : IntResult K :=
  let total := (pts.map fun p => p.volume).sum
  if total = 0 then .noVolume
  else
    let used := pts.takeWhile fun p => decide (p.volume ≠ 0)
    if used.all fun p => inBox p.idx && decide (g.vol p.idx.1 p.idx.2 > 0) then
      .ok (used.map fun p => p.volume / total * extrapolate g dx f p.idx p.xM).sum
        (used.map fun p => p.volume / total * f.gx p.idx).sum
        (used.map fun p => p.volume / total * f.gx p.idx).sum
    else .outside

/-- One turn of `ComputeBoundaryStates`: the members `state_` and `gradients_` are stored whether the integration succeeded or not. The first argument are the members (value and two gradients) and the stored references.
/repo/include/fub/cutcell_method/MyStabilisation.hpp:222-236 -/
def boundaryStep (st : (K × K × K) × List ((ℤ × ℤ) × (K × K × K))) (cell : (ℤ × ℤ) × IntResult K) : (K × K × K) × List ((ℤ × ℤ) × (K × K × K)) :=
  let mem : K × K × K := match cell.2 with
    | .noVolume => st.1
    | .outside => (st.1.1, 0, 0)
    | .ok v dx dy => (v, dx, dy)
  (mem, st.2 ++ [(cell.1, mem)])

/-- `ComputeBoundaryStates` over the cut cells with the outcomes of their integrations: the stored references. /repo/include/fub/cutcell_method/MyStabilisation.hpp:214-236 -/
def boundaryStates (init : K × K × K) (cells : List ((ℤ × ℤ) × IntResult K)) : List ((ℤ × ℤ) × (K × K × K)) := (cells.foldl boundaryStep (init, [])).2

/-- `GetAbsoluteUnshieldedCentroid`: the position along the face, relative to its middle and in units of its length; `nL`, `nR` are the entries of the stored normals (towards the solid) of the cells left and right along the face.
/repo/src/CutCellData.cpp:141-183 -/
def usCentroid (sL sR nL nR : K) : K :=
  let uL : K × K := if sL > 0 then (if nL < 0 then (sL, 1) else (0, 1 - sL)) else (0, 1)
  let uR : K × K := if sR > 0 then (if nR < 0 then (sR, 1) else (0, 1 - sR)) else (0, 1)
  1 / 2 * (max uL.1 uR.1 + min uL.2 uR.2) - 1 / 2

omit [LinearOrder K] in
/-- The stabilised flux of a face, from the relative parts of the face. /repo/src/cutcell_method/MyStabilisation.cpp:49-79 -/
def myStable (p : FaceParts K) (f fsL fsR : K) : K := p.usRel * f + p.sLRel * fsL + p.sRRel * fsR

end

end Fub
