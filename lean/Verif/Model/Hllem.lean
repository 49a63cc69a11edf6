import Verif.Model.Gas

/-!
# Model of the HLLEM flux and Riemann solver for the perfect gas

Source: `/repo/src/equations/perfect_gas/HllemMethod.hpp`, `/repo/include/fub/equations/perfect_gas/HllemMethod.hpp`.

Simplifications: exact real numbers; one lane of the arrays; `euler::MaSq` is 1 for `PerfectGas` (no `tag_invoke`,
/repo/include/fub/equations/EulerEquation.hpp:53-62), so the factors `Msq` and `Minv` are omitted; no species and passive scalars.
The three branches `Dim == 1, 2, 3` of the code are written as one definition for every rank `d`, deviations of the branch `Dim == 3` are marked.
-/

namespace Fub
open Finset
variable {d : ℕ}

/-- `(sqRhoL * xL + sqRhoR * xR) / sqRhoSum`. /repo/src/equations/perfect_gas/HllemMethod.hpp:80-90,429-436 -/
noncomputable def roeMean (rhoL rhoR xL xR : ℝ) : ℝ :=
  (Real.sqrt rhoL * xL + Real.sqrt rhoR * xR) / (Real.sqrt rhoL + Real.sqrt rhoR)

/-- `sqRhoL_over_Sum * xL + sqRhoR_over_Sum * xR`. /repo/src/equations/perfect_gas/HllemMethod.hpp:763-774 -/
noncomputable def roeMeanArray (rhoL rhoR xL xR : ℝ) : ℝ :=
  Real.sqrt rhoL / (Real.sqrt rhoL + Real.sqrt rhoR) * xL + Real.sqrt rhoR / (Real.sqrt rhoL + Real.sqrt rhoR) * xR

/-- `0.5 * sum of the squared transversal velocities` (`eKinRL`). /repo/src/equations/perfect_gas/HllemMethod.hpp:42-57,388-404,726-746 -/
noncomputable def transKin (dir : Fin d) (q : GasComplete d) : ℝ :=
  1 / 2 * ∑ i, (if i = dir then 0 else q.momentum i / q.density * (q.momentum i / q.density))

/-- The state without its transversal momentum, for the Larrouturou version; pressure and sound speed are kept.
/repo/src/equations/perfect_gas/HllemMethod.hpp:46-57,392-404,730-746 -/
noncomputable def stripTrans (dir : Fin d) (q : GasComplete d) : GasComplete d :=
  { q with momentum := fun i => if i = dir then q.momentum i else 0
           energy := q.energy - q.density * transKin dir q }

/-- The local variables that `SolveRiemannProblem` and `ComputeNumericFlux` compute from their two states. Serves the model of /repo/src/equations/perfect_gas/HllemMethod.hpp:62-113,121-138. -/
structure HllemData (d : ℕ) where
  roeU : Fin d → ℝ
  roeH : ℝ
  gm1 : ℝ
  roeA2 : ℝ
  roeA : ℝ
  sL : ℝ
  sR : ℝ
  bL : ℝ
  bR : ℝ
  db : ℝ
  uBar : ℝ
  delta : ℝ
  b : ℝ
  alpha2 : ℝ

/-- The local variables, from a mean value `mean` and the ratio of specific heats of the two states.
Scalar: /repo/src/equations/perfect_gas/HllemMethod.hpp:62-113,121-138 and 409-457,465-479;
array: 751-805,813-831. `db_positive` is written into `db`. -/
noncomputable def hllemData (mean : ℝ → ℝ → ℝ) (gammaL gammaR : ℝ) (dir : Fin d) (l r : GasComplete d) : HllemData d :=
  let uL := l.momentum dir / l.density
  let uR := r.momentum dir / r.density
  let hL := (l.energy + l.pressure) / l.density
  let hR := (r.energy + r.pressure) / r.density
  let roeU := fun i => mean (l.momentum i / l.density) (r.momentum i / r.density)
  let roeH := mean hL hR
  let gm1 := mean gammaL gammaR - 1
  let roeA2 := gm1 * (roeH - 1 / 2 * ∑ i, roeU i * roeU i)
  let roeA := Real.sqrt roeA2
  let maxA := max l.speedOfSound r.speedOfSound
  let sL := min (uL - maxA) (roeU dir - roeA)
  let sR := max (roeU dir + roeA) (uR + maxA)
  let bL := min sL 0
  let bR := max sR 0
  let db := if 0 < bR - bL then bR - bL else 1
  let uBar := 1 / 2 * (sR + sL)
  let delta := roeA / (roeA + |uBar|)
  let alpha2 := gm1 / roeA2 * (roeH - ∑ i, roeU i * roeU i) * (r.density - l.density)
    + (∑ i, gm1 / roeA2 * roeU i * (r.momentum i - l.momentum i)) + gm1 / roeA2 * (-1) * (r.energy - l.energy)
  ⟨roeU, roeH, gm1, roeA2, roeA, sL, sR, bL, bR, db, uBar, delta, bL * bR / db, alpha2⟩

/-- `alpha_3`, `alpha_4`: the strength of the shear wave in direction `i`. /repo/src/equations/perfect_gas/HllemMethod.hpp:553-556,638-643 -/
def HllemData.alphaShear (D : HllemData d) (l r : GasComplete d) (i : Fin d) : ℝ :=
  -D.roeU i * (r.density - l.density) + (r.momentum i - l.momentum i)

/-- A component of `flux_hlle_`. /repo/src/equations/perfect_gas/HllemMethod.hpp:459-463,806-811 -/
noncomputable def HllemData.hlle (D : HllemData d) (fL fR qL qR : ℝ) : ℝ := (D.bR * fL - D.bL * fR + D.bL * D.bR * (qR - qL)) / D.db

/-- The factor `upwind * x - (1 - upwind) * y` of the scalar Larrouturou flux. /repo/src/equations/perfect_gas/HllemMethod.hpp:546-550,631-636 -/
noncomputable def larrScalar (fRho x y : ℝ) : ℝ := if 0 < fRho then x else -y

/-- `upwind.select(x, y)` of the array version. /repo/src/equations/perfect_gas/HllemMethod.hpp:912-915,994-1000 -/
noncomputable def larrArray (fRho x y : ℝ) : ℝ := if 0 < fRho then x else y

/-- `ComputeNumericFlux`, scalar version: the flux and the returned `p_star`; `none` if the assertion `density > 0` of `Flux` fails.
`old` is the content of the output argument `flux` before the call. Deviation for `Dim == 3`: `flux.density` and `flux.momentum[ix]` are never
assigned, and the Larrouturou version reads the old `flux.density`. /repo/src/equations/perfect_gas/HllemMethod.hpp:371-709 -/
noncomputable def hllemFlux (eq : GasEq) (larr : Bool) (dir : Fin d) (old : GasCons d) (left right : GasComplete d) :
    Option (GasCons d × ℝ) :=
  let l := if larr then stripTrans dir left else left
  let r := if larr then stripTrans dir right else right
  if 0 < l.density ∧ 0 < r.density then
    let D := hllemData (roeMean l.density r.density) eq.gamma eq.gamma dir l r
    let fL := gasFluxArray l dir
    let fR := gasFluxArray r dir
    let bda := D.b * D.delta * D.alpha2
    let density := if d = 3 then old.density else D.hlle fL.density fR.density l.density r.density - bda
    let hm := fun i => D.hlle (fL.momentum i) (fR.momentum i) (l.momentum i) (r.momentum i)
    let he := D.hlle fL.energy fR.energy l.energy r.energy
    let half := 1 / 2 * ∑ i, D.roeU i * D.roeU i
    let flux : GasCons d :=
      { density := density
        momentum := fun i =>
          if i = dir then (if d = 3 then old.momentum dir else hm dir - bda * D.roeU dir)
          else if larr then density * larrScalar density (left.momentum i / left.density) (right.momentum i / right.density)
          else hm i - bda * D.roeU i - D.b * D.delta * D.alphaShear l r i
        energy :=
          if larr then he - bda * half + density * larrScalar density (transKin dir left) (transKin dir right)
          else he - bda * half - ∑ i, (if i = dir then 0 else D.b * D.delta * D.alphaShear l r i * D.roeU i) }
    some (flux, (D.bR * l.pressure - D.bL * r.pressure) / D.db)
  else none

/-- The successor of a direction, `(ix + 1) % Dim`. /repo/src/equations/perfect_gas/HllemMethod.hpp:976 -/
def nextDir (i : Fin d) : Fin d := ⟨(i.1 + 1) % d, Nat.mod_lt _ (Nat.lt_of_le_of_lt (Nat.zero_le _) i.2)⟩

/-- `ComputeNumericFlux`, array version, one lane. Deviation for `Dim == 3`: the momentum in direction `ix` is corrected with `roeU.row(iy)`.
/repo/src/equations/perfect_gas/HllemMethod.hpp:711-1072 -/
noncomputable def hllemFluxArray (eq : GasEq) (larr : Bool) (dir : Fin d) (left right : GasComplete d) : GasCons d × ℝ :=
  let l := if larr then stripTrans dir left else left
  let r := if larr then stripTrans dir right else right
  let D := hllemData (roeMeanArray l.density r.density) eq.gammaArray eq.gammaArray dir l r
  let fL := gasFluxArray l dir
  let fR := gasFluxArray r dir
  let bda := D.b * D.delta * D.alpha2
  let density := D.hlle fL.density fR.density l.density r.density - bda
  let hm := fun i => D.hlle (fL.momentum i) (fR.momentum i) (l.momentum i) (r.momentum i)
  let he := D.hlle fL.energy fR.energy l.energy r.energy
  let half := 1 / 2 * ∑ i, D.roeU i * D.roeU i
  let flux : GasCons d :=
    { density := density
      momentum := fun i =>
        if i = dir then hm dir - bda * D.roeU (if d = 3 then nextDir dir else dir)
        else if larr then density * larrArray density (left.momentum i / left.density) (right.momentum i / right.density)
        else hm i - bda * D.roeU i - D.b * D.delta * D.alphaShear l r i
      energy :=
        if larr then he - bda * half + density * larrArray density (transKin dir left) (transKin dir right)
        else he - bda * half - ∑ i, (if i = dir then 0 else D.b * D.delta * D.alphaShear l r i * D.roeU i) }
  (flux, (D.bR * l.pressure - D.bL * r.pressure) / D.db)

/-- `ComputeNumericFlux` with face fractions, one lane: closed faces get flux zero. /repo/src/equations/perfect_gas/HllemMethod.hpp:1074-1093 -/
noncomputable def hllemFluxMasked (eq : GasEq) (larr : Bool) (dir : Fin d) (faceFraction : ℝ) (left right : GasComplete d) : GasCons d :=
  if 0 < faceFraction then (hllemFluxArray eq larr dir left right).1 else ⟨0, fun _ => 0, 0⟩

/-- `SolveRiemannProblem`; `none` if an assertion of `Flux` or `CompleteFromCons` fails. The state correction has the factor
`u_bar * delta`. /repo/src/equations/perfect_gas/HllemMethod.hpp:25-369 -/
noncomputable def hllemSolve (eq : GasEq) (larr : Bool) (dir : Fin d) (left right : GasComplete d) : Option (GasComplete d) :=
  let l := if larr then stripTrans dir left else left
  let r := if larr then stripTrans dir right else right
  if 0 < l.density ∧ 0 < r.density then
    let D := hllemData (roeMean l.density r.density) eq.gamma eq.gamma dir l r
    let fL := gasFluxArray l dir
    let fR := gasFluxArray r dir
    let hlle := fun fL fR qL qR : ℝ => (D.bR * qR - D.bL * qL + fL - fR) / D.db
    let uda := D.uBar * D.delta * D.alpha2
    let density := hlle fL.density fR.density l.density r.density - uda
    let half := 1 / 2 * ∑ i, D.roeU i * D.roeU i
    let w : GasCons d :=
      { density := density
        momentum := fun i =>
          if i = dir ∨ larr = false then
            hlle (fL.momentum i) (fR.momentum i) (l.momentum i) (r.momentum i) - uda * D.roeU i
              - (if i = dir then 0 else D.uBar * D.delta * D.alphaShear l r i)
          else density * (if 0 < D.uBar then left.momentum i / left.density else right.momentum i / right.density)
        energy :=
          hlle fL.energy fR.energy l.energy r.energy - uda * half
            + (if larr then density * (if 0 < D.uBar then transKin dir left else transKin dir right)
               else -∑ i, (if i = dir then 0 else D.uBar * D.delta * D.alphaShear l r i * D.roeU i)) }
    if 0 < D.sL then some l else if D.sR < 0 then some r else gasComplete eq w
  else none

/-- `ComputeStableDt`, scalar version. It always uses the states with their transversal momentum and `equation_.gamma`. `none` if the assertion
`sqRhoSum > 0` fails, `⊤` for a division by zero. /repo/src/equations/perfect_gas/HllemMethod.hpp:1095-1150 -/
noncomputable def hllemStableDt (eq : GasEq) (dir : Fin d) (dx : ℝ) (l r : GasComplete d) : Option (WithTop ℝ) :=
  if 0 < Real.sqrt l.density + Real.sqrt r.density then
    let D := hllemData (roeMean l.density r.density) eq.gamma eq.gamma dir l r
    let maxS := max |D.sL| |D.sR|
    some (if maxS = 0 then ⊤ else ((dx / maxS : ℝ) : WithTop ℝ))
  else none

end Fub
