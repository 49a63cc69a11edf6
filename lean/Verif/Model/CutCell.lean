import Verif.Model.GasExact

/-!
# Model of the cut-cell method

Source: `/repo/src/AMReX/cutcell/FillCutCellData.cpp`, `/repo/src/cutcell_method/KbnStabilisation.cpp`, `/repo/src/AMReX/cutcell/TimeIntegrator.cpp`,
`/repo/include/fub/cutcell_method/KbnStabilisation.hpp`, `/repo/include/fub/ext/Eigen.hpp`.

Simplifications: exact numbers of an ordered field; every function is modelled for one conservative component and one row, which is how the code calls it.
The assertions that a value is not NaN have no counterpart. The data of the row are functions of the position, of which only the positions `0, …, n - 1` are used.
-/

namespace Fub

section
variable {K : Type} [Field K] [LinearOrder K] [DecidableEq K]

/-- Parts of a face: the open fraction, and its parts that are not shielded, shielded by the left cell, shielded by the right cell and shielded by both;
the fields with suffix `Rel` are relative to the open fraction. Serves the model of /repo/src/AMReX/cutcell/FillCutCellData.cpp:68-93. -/
structure FaceParts (K : Type) where
  us : K
  sL : K
  sR : K
  ds : K
  usRel : K
  sLRel : K
  sRRel : K
  dsRel : K

/-- `FillCutCellData__`, the scalar loop for the faces left over: `bL`, `bM`, `bR` are the open fractions of a face and of its two neighbours
in the direction of the split. The assertion `betaM >= 0` is `none`. /repo/src/AMReX/cutcell/FillCutCellData.cpp:68-93 -/
def fillCutCellScalar (bL bM bR : K) : Option (FaceParts K) :=
  if 0 ≤ bM then
    let dBetaL := max 0 (bM - bL)
    let dBetaR := max 0 (bM - bR)
    let unshielded := max 0 (bM - max dBetaL dBetaR)
    let doublyShielded := min dBetaL dBetaR
    let shieldedLeft := dBetaL - doublyShielded
    let shieldedRight := dBetaR - doublyShielded
    let b := if 0 < bM then bM else 1
    some ⟨unshielded, shieldedLeft, shieldedRight, doublyShielded, unshielded / b, shieldedLeft / b, shieldedRight / b, doublyShielded / b⟩
  else none

/-- `FillCutCellData__`, one lane of the SIMD loop. /repo/src/AMReX/cutcell/FillCutCellData.cpp:38-67 -/
def fillCutCellLane (bL bM bR : K) : FaceParts K :=
  let dBetaL := max 0 (bM - bL)
  let dBetaR := max 0 (bM - bR)
  let unshielded := max 0 (bM - max dBetaL dBetaR)
  let doublyShielded := min dBetaL dBetaR
  let shieldedLeft := dBetaL - doublyShielded
  let shieldedRight := dBetaR - doublyShielded
  let b := if bM ≤ 0 then 1 else bM
  ⟨unshielded, shieldedLeft, shieldedRight, doublyShielded, unshielded / b, shieldedLeft / b, shieldedRight / b, doublyShielded / b⟩

/-- `FillCutCellData_` for one line in the direction of the split: the face `k` sees the faces `k - 1` and `k + 1`.
/repo/src/AMReX/cutcell/FillCutCellData.cpp:107-117 -/
def faceParts (beta : Int → K) (k : Int) : FaceParts K := fillCutCellLane (beta (k - 1)) (beta k) (beta (k + 1))

/-- `std::clamp(x, 0.0, 1.0)` and the SIMD function `clamp`.
/repo/src/cutcell_method/KbnStabilisation.cpp:49-53, /repo/src/AMReX/cutcell/TimeIntegrator.cpp:59-63 -/
def clamp01 (x : K) : K := if x < 0 then 0 else if 1 < x then 1 else x

/-- The fluxes of one face. /repo/src/AMReX/cutcell/TimeIntegrator.cpp:34-39 -/
structure CutFlux (K : Type) where
  stable : K
  shieldedL : K
  shieldedR : K
  regular : K

/-- `ComputeStableFluxes_Row` for one face; the SIMD loop and the scalar loop compute the same expressions. `fbL`, `centerL` belong to the cell on the
left of the face, `fbR`, `centerR` to the cell on its right. /repo/src/cutcell_method/KbnStabilisation.cpp:55-105 -/
def kbnStableFlux (f fbL fbR usRel sLRel sRRel centerL centerR : K) : CutFlux K :=
  let dL := clamp01 (1 / 2 - centerL)
  let dR := clamp01 (1 / 2 + centerR)
  let fsL := dL * f + (1 - dL) * fbL
  let fsR := dR * f + (1 - dR) * fbR
  ⟨usRel * f + sLRel * fsL + sRRel * fsR, fsL, fsR, f⟩

/-- `ComputeStableFluxComponents_View` for one line: cells to the left of the face `k` have the index `k - 1`.
/repo/src/cutcell_method/KbnStabilisation.cpp:107-159 -/
def kbnLine (beta center fB f : Int → K) (k : Int) : CutFlux K :=
  let p := faceParts beta k
  kbnStableFlux (f k) (fB (k - 1)) (fB k) p.usRel p.sLRel p.sRRel (center (k - 1)) (center k)

/-- What the update of a cell sees of one of its faces. /repo/src/AMReX/cutcell/TimeIntegrator.cpp:46-51 -/
structure CutFace (K : Type) where
  beta : K
  us : K
  sL : K
  sR : K

/-- The update of a cell whose left face is larger. /repo/src/AMReX/cutcell/TimeIntegrator.cpp:104-124,175-191 -/
def cutLeftGreater (lam prev alpha center fB : K) (bL : CutFace K) (fL fR : CutFlux K) : K :=
  let dBeta := clamp01 (bL.sR * (1 / 2 + center) / alpha)
  prev + lam * (bL.us / alpha) * (fL.regular - fR.stable) + lam * (bL.sL / alpha) * (fL.shieldedL - fR.stable) + lam * dBeta * (fL.regular - fB)

/-- The update of a cell whose right face is larger. /repo/src/AMReX/cutcell/TimeIntegrator.cpp:129-149,196-212 -/
def cutRightGreater (lam prev alpha center fB : K) (bR : CutFace K) (fL fR : CutFlux K) : K :=
  let dBeta := clamp01 (bR.sL * (1 / 2 - center) / alpha)
  prev + lam * (bR.us / alpha) * (fL.stable - fR.regular) + lam * (bR.sR / alpha) * (fL.stable - fR.shieldedR) + lam * dBeta * (fB - fR.regular)

/-- `UpdateConservatively_Row`, the scalar loop for the cells left over. /repo/src/AMReX/cutcell/TimeIntegrator.cpp:157-215 -/
def cutUpdateScalar (lam prev alpha center fB : K) (bL bR : CutFace K) (fL fR : CutFlux K) : K :=
  if alpha = 0 then 0
  else if bL.beta = bR.beta then prev + lam * (fL.stable - fR.stable)
  else if bR.beta < bL.beta then cutLeftGreater lam prev alpha center fB bL fL fR
  else cutRightGreater lam prev alpha center fB bR fL fR

/-- `UpdateConservatively_Row`, one lane of the SIMD loop; `allCovered` says that every lane of the pack has volume zero.
/repo/src/AMReX/cutcell/TimeIntegrator.cpp:74-156 -/
def cutUpdateLane (allCovered : Bool) (lam prev alpha center fB : K) (bL bR : CutFace K) (fL fR : CutFlux K) : K :=
  if allCovered then 0
  else
    let alpha := if alpha = 0 then 1 else alpha
    let regular := prev + lam * (fL.stable - fR.stable)
    let next := if 0 < alpha then regular else 0
    let next := if 0 < alpha ∧ bR.beta < bL.beta then cutLeftGreater lam prev alpha center fB bL fL fR else next
    if 0 < alpha ∧ bL.beta < bR.beta then cutRightGreater lam prev alpha center fB bR fL fR else next

/-- The data that the update of one cell reads. Serves the model of /repo/src/AMReX/cutcell/TimeIntegrator.cpp:65-221. -/
structure CutInput (K : Type) where
  prev : K
  alpha : K
  center : K
  fB : K
  bL : CutFace K
  bR : CutFace K
  fL : CutFlux K
  fR : CutFlux K

/-- `UpdateConservatively_Row` with packs of `w` lanes on a row of `n` cells: packs as long as they fit, then the scalar loop.
/repo/src/AMReX/cutcell/TimeIntegrator.cpp:65-221 -/
def cutUpdateRow (w n : ℕ) (lam : K) (c : ℕ → CutInput K) (i : ℕ) : Option K :=
  if i < n then
    if i / w * w + w ≤ n then
      some (cutUpdateLane (decide (∀ j < w, (c (i / w * w + j)).alpha = 0)) lam (c i).prev (c i).alpha (c i).center (c i).fB (c i).bL (c i).bR (c i).fL (c i).fR)
    else some (cutUpdateScalar lam (c i).prev (c i).alpha (c i).center (c i).fB (c i).bL (c i).bR (c i).fL (c i).fR)
  else none

/-- What the integrator passes on about the face `k` of a line. /repo/src/AMReX/cutcell/TimeIntegrator.cpp:366-381 -/
def cutFace (beta : Int → K) (k : Int) : CutFace K := ⟨beta k, (faceParts beta k).us, (faceParts beta k).sL, (faceParts beta k).sR⟩

/-- One step of a line of cells in the direction of the split with the stabilised fluxes: the cell `i` has the faces `i` and `i + 1`.
`u`, `alpha`, `center`, `fB` are the values, volume fractions, boundary centroids and boundary fluxes of the cells, `beta`, `f` the open fractions and
regular fluxes of the faces, `lam` is `dt / dx`. /repo/src/AMReX/cutcell/TimeIntegrator.cpp:317-389,244-315 -/
def cutLineStep (lam : K) (u alpha center fB beta f : Int → K) (i : Int) : K :=
  cutUpdateScalar lam (u i) (alpha i) (center i) (fB i) (cutFace beta i) (cutFace beta (i + 1)) (kbnLine beta center fB f i) (kbnLine beta center fB f (i + 1))

/-- `TimeIntegrator2::UpdateConservatively` for one cell of a patch with cut cells; the assertion `volfrac == bL` is `none`. Cells without volume keep the
value `old` of the destination. /repo/src/AMReX/cutcell/TimeIntegrator.cpp:452-479 -/
def cutUpdate2 (lam old prev alpha fB bL bR fL fR : K) : Option K :=
  if 0 < alpha then
    if bL = bR then
      if alpha = bL then some (prev + lam * (fL - fR)) else none
    else some (prev + lam / alpha * (bL * fL - bR * fR - (bL - bR) * fB))
  else some old

/-- A face as the flux register sees it: full area, open fraction, regular flux and stabilised flux, and the length of the time step. The fluxes that
`GetFluxes` returns are the regular ones, the update uses the stabilised ones. /repo/src/AMReX/cutcell/IntegratorContext.cpp:679-706 -/
structure RegFace (K : Type) where
  area : K
  beta : K
  regular : K
  stable : K
  dt : K

/-- What the update of a cell receives through the face. Serves the model of /repo/src/AMReX/cutcell/TimeIntegrator.cpp:65-221. -/
def RegFace.exchange (r : RegFace K) : K := r.dt * r.area * (r.beta * r.stable)

/-- `AccumulateCoarseFineFluxes` over one coarse step: `CrseInit` with the coarse face and `FineAdd` with the fine faces of all substeps that cover it.
/repo/src/AMReX/cutcell/IntegratorContext.cpp:679-706 -/
def cutRegister (coarse : RegFace K) (fine : List (RegFace K)) : K :=
  -(coarse.dt * coarse.area * coarse.regular) + (fine.map fun r => r.dt * r.area * r.regular).sum

/-- `ApplyFluxCorrection` for the coarse cell on the right of the face; `volume` is the volume of the whole cell, as in `FluxRegister::Reflux`.
/repo/src/AMReX/cutcell/IntegratorContext.cpp:726-747 -/
def cutReflux (volume u reg : K) : K := u + reg / volume

end

/-! ### Boundary fluxes -/

/-- `MakeRotation` in two dimensions. /repo/include/fub/ext/Eigen.hpp:104-115 -/
noncomputable def makeRotation2 (a b : Fin 2 → ℝ) : Fin 2 → Fin 2 → ℝ :=
  open Classical in
  if a = fun i => -b i then fun i j => if i = j then -1 else 0
  else
    let s := a 0 * b 1 - a 1 * b 0
    let c := a 0 * b 0 + a 1 * b 1
    ![![c, -s], ![s, c]]

/-- `MakeRotation` in three dimensions. /repo/include/fub/ext/Eigen.hpp:117-130 -/
noncomputable def makeRotation3 (a b : Fin 3 → ℝ) : Fin 3 → Fin 3 → ℝ :=
  open Classical in
  if a = fun i => -b i then fun i j => if i = j then -1 else 0
  else
    let v0 := a 1 * b 2 - a 2 * b 1
    let v1 := a 2 * b 0 - a 0 * b 2
    let v2 := a 0 * b 1 - a 1 * b 0
    let c := a 0 * b 0 + a 1 * b 1 + a 2 * b 2
    let skew : Fin 3 → Fin 3 → ℝ := ![![0, -v2, v1], ![v2, 0, -v0], ![-v1, v0, 0]]
    fun i j => (if i = j then 1 else 0) + skew i j + (∑ k, skew i k * skew k j) / (1 + c)

section
variable {d : ℕ} [NeZero d]

/-- `UnitVector<Rank>(Direction::X)`. /repo/include/fub/ext/Eigen.hpp:96-102 -/
def unitX (d : ℕ) [NeZero d] : Fin d → ℝ := fun i => if i = 0 then 1 else 0

/-- The Riemann problem between a state and its mirror image at the wall with normal `n`, in the frame in which the normal is the first unit vector.
`rot` is `MakeRotation`, `old` the content of `solution_`.
/repo/include/fub/cutcell_method/KbnStabilisation.hpp:200-206,229-236 -/
noncomputable def kbnWallState (rot : (Fin d → ℝ) → (Fin d → ℝ) → Fin d → Fin d → ℝ) (eq : GasEq) (limit : Int) (old : GasComplete d) (n : Fin d → ℝ)
    (state : GasComplete d) : Option (GasComplete d) :=
  let state := gasRotate (rot n (unitX d)) state
  let reflected := gasReflect (unitX d) state
  (gasExactSolve eq limit old reflected state 0).map (gasRotate (rot (unitX d) n))

/-- `PreAdvanceHierarchy` for one cut cell: the reference state, `none` if an assertion fails or an exception is thrown; a cell without mass keeps `oldReference`.
/repo/include/fub/cutcell_method/KbnStabilisation.hpp:188-210 -/
noncomputable def kbnReference (rot : (Fin d → ℝ) → (Fin d → ℝ) → Fin d → Fin d → ℝ) (eq : GasEq) (limit : Int) (old oldReference : GasComplete d)
    (n : Fin d → ℝ) (state : GasComplete d) : Option (GasComplete d) :=
  if 0 < state.density then kbnWallState rot eq limit old n state else some oldReference

/-- `ComputeBoundaryFlux`; `mirror` is the reference mirror state, used when `mask` is set.
/repo/include/fub/cutcell_method/KbnStabilisation.hpp:212-244 -/
noncomputable def kbnBoundaryFlux (rot : (Fin d → ℝ) → (Fin d → ℝ) → Fin d → Fin d → ℝ) (eq : GasEq) (limit : Int) (old : GasComplete d)
    (state reference mirror : GasComplete d) (n : Fin d → ℝ) (mask : Bool) (dir : Fin d) : Option (GasCons d) :=
  match gasFlux reference dir with
  | none => none
  | some flux =>
    let solution :=
      if mask then
        (gasExactSolve eq limit old mirror (gasRotate (rot n (unitX d)) state) 0).map (gasRotate (rot (unitX d) n))
      else kbnWallState rot eq limit old n state
    match solution with
    | none => none
    | some s => some { flux with momentum := fun i => flux.momentum i + (if i = dir then s.pressure - reference.pressure else 0) }

end
end Fub
