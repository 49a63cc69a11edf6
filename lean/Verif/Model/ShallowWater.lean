import Verif.Model.Flux
import Verif.Model.Util
import Mathlib.Analysis.SpecialFunctions.Pow.Real

/-!
Shallow water equations: flux, signal velocities and exact Riemann solver.

Sources: `/repo/include/fub/equations/ShallowWater.hpp`, `/repo/src/equations/ShallowWater.cpp`.
Simplification: exact real arithmetic; the array versions loop over the lanes or repeat the scalar formula, one lane is modelled.
-/

namespace Fub

/-- `Complete<ShallowWater>` and `Conservative<ShallowWater>` (they are the same). /repo/include/fub/equations/ShallowWater.hpp:37-60 -/
structure SwState where
  height : ℝ
  momentum : Fin 2 → ℝ

/-- `ShallowWater::Flux`, scalar and array version. /repo/src/equations/ShallowWater.cpp:26-44 -/
noncomputable def swFlux (g : ℝ) (q : SwState) (dir : Fin 2) : SwState :=
  let velocity := q.momentum dir
  { height := q.momentum dir
    momentum := fun i => velocity * q.momentum i + (if i = dir then 1 / 2 * g * q.height * q.height else 0) }

/-- The components of a state in the order of `ForEachComponent`. Serves the model of /repo/include/fub/equations/ShallowWater.hpp:53-60. -/
inductive SwVar where
  | height
  | momentum (i : Fin 2)
deriving DecidableEq

/-- Component of a state. Serves the model of /repo/include/fub/equations/ShallowWater.hpp:53-60. -/
def SwState.get (q : SwState) : SwVar → ℝ
  | .height => q.height
  | .momentum i => q.momentum i

/-- A state from its components. Serves the model of /repo/include/fub/equations/ShallowWater.hpp:53-60. -/
def SwState.ofFn (f : SwVar → ℝ) : SwState := ⟨f .height, fun i => f (.momentum i)⟩

/-- The shallow water equations in direction `dir` for the flux methods. `CompleteFromCons` is the identity.
/repo/include/fub/equations/ShallowWater.hpp:53-60 -/
noncomputable def swEqn (g : ℝ) (dir : Fin 2) : EqnOps ℝ SwState SwVar where
  cons := SwState.get
  setCons _ f := .ofFn f
  complete f := .ofFn f
  flux q := (swFlux g q dir).get

/-- `ShallowWaterSignalVelocities`, scalar and array version. /repo/src/equations/ShallowWater.cpp:247-271 -/
noncomputable def swSignals (g : ℝ) (dir : Fin 2) (left right : SwState) : ℝ × ℝ :=
  let vL := left.momentum dir / left.height
  let cL := Real.sqrt (g * left.height)
  let vR := right.momentum dir / right.height
  let cR := Real.sqrt (g * right.height)
  (min (min (vL - cL) (vR - cR)) 0, max (max (vL + cL) (vR + cR)) 0)

/-- The function `f_left`. /repo/src/equations/ShallowWater.cpp:53-59 -/
noncomputable def swFLeft (g uL hL h : ℝ) : ℝ :=
  if h < hL then uL + 2 * (Real.sqrt (g * hL) - Real.sqrt (g * h))
  else uL - (h - hL) * Real.sqrt (1 / 2 * g * (1 / h + 1 / hL))

/-- The function `df_left`. /repo/src/equations/ShallowWater.cpp:60-68 -/
noncomputable def swDFLeft (g hL h : ℝ) : ℝ :=
  if h < hL then -g / Real.sqrt (g * h)
  else 1 / 4 * g * (h - hL) / (h * h * Real.sqrt (1 / 2 * g * (1 / h + 1 / hL))) - Real.sqrt (1 / 2 * g * (1 / h + 1 / hL))

/-- The function `f_right`. /repo/src/equations/ShallowWater.cpp:72-78 -/
noncomputable def swFRight (g uR hR h : ℝ) : ℝ :=
  if h < hR then uR - 2 * (Real.sqrt (g * hR) - Real.sqrt (g * h))
  else uR + (h - hR) * Real.sqrt (1 / 2 * g * (1 / h + 1 / hR))

/-- The function `df_right`. /repo/src/equations/ShallowWater.cpp:79-87 -/
noncomputable def swDFRight (g hR h : ℝ) : ℝ :=
  if h < hR then g / Real.sqrt (g * h)
  else Real.sqrt (1 / 2 * g * (1 / h + 1 / hR)) - 1 / 4 * g * (h - hR) / (h * h * Real.sqrt (1 / 2 * g * (1 / h + 1 / hR)))

/-- The function `f` whose zero is the height of the middle state. /repo/src/equations/ShallowWater.cpp:88 -/
noncomputable def swF (g uL hL uR hR h : ℝ) : ℝ := swFRight g uR hR h - swFLeft g uL hL h

/-- The function `df`. /repo/src/equations/ShallowWater.cpp:89 -/
noncomputable def swDF (g hL hR h : ℝ) : ℝ := swDFRight g hR h - swDFLeft g hL h

/-- `ComputeMiddleState`; `none` is the exception of the Newton iteration. /repo/src/equations/ShallowWater.cpp:46-101,
/repo/include/fub/NewtonIteration.hpp:28-30 for the default tolerance and iteration limit. `limit` is 5000 in the code. -/
noncomputable def swMiddle (g : ℝ) (limit : Int) (left right : SwState) (dir : Fin 2) : Option SwState :=
  let uL := left.momentum dir / left.height
  let uR := right.momentum dir / right.height
  match newtonIteration (swF g uL left.height uR right.height) (swDF g left.height right.height)
      (1 / 2 * (left.height + right.height)) (1 / 10 ^ 7) limit with
  | none => none
  | some hM => some ⟨hM, fun i => if i = dir then hM * swFLeft g uL left.height hM else 0⟩

/-- `ComputeSignals` of the exact solver; `none` is the exception or a failed assertion. /repo/src/equations/ShallowWater.cpp:103-129 -/
noncomputable def swExactSignals (g : ℝ) (limit : Int) (left right : SwState) (dir : Fin 2) : Option (ℝ × ℝ) :=
  match swMiddle g limit left right dir with
  | none => none
  | some middle =>
    if middle.height ≤ left.height ∧ ¬ 0 < left.height ∨ middle.height ≤ right.height ∧ ¬ 0 < right.height then none
    else some
      (if middle.height ≤ left.height then left.momentum dir / left.height - Real.sqrt (g * left.height)
        else (middle.momentum dir - left.momentum dir) / (middle.height - left.height),
       if middle.height ≤ right.height then right.momentum dir / right.height + Real.sqrt (g * right.height)
        else (right.momentum dir - middle.momentum dir) / (right.height - middle.height))

/-- `SolveRiemannProblem` of the exact solver, after the middle state is known. /repo/src/equations/ShallowWater.cpp:155-227 -/
noncomputable def swSample (g : ℝ) (middle left right : SwState) (dir : Fin 2) : SwState :=
  let d1 : Fin 2 := dir + 1
  let uL := left.momentum dir / left.height
  let vL := left.momentum d1 / left.height
  let hL := left.height
  let uR := right.momentum dir / right.height
  let vR := right.momentum d1 / right.height
  let hR := right.height
  let hM := middle.height
  let uM := middle.momentum dir / middle.height
  let cM := Real.sqrt (g * hM)
  let cL := Real.sqrt (g * hL)
  let cR := Real.sqrt (g * hR)
  if 0 ≤ uM then
    let mid : SwState := ⟨hM, fun i => if i = d1 then hM * vL else middle.momentum i⟩
    if hL < hM then
      let sL := (hM * uM - hL * uL) / (hM - hL)
      if 0 < sL then left else mid
    else if 0 < uL - cL then left
    else if uM - cM < 0 then mid
    else
      let a := uL + 2 * cL
      let h := a * a / (9 * g)
      let u := uL + 2 * (cL - Real.sqrt (g * h))
      ⟨h, fun i => if i = dir then h * u else h * vL⟩
  else
    let mid : SwState := ⟨hM, fun i => if i = d1 then hM * vR else middle.momentum i⟩
    if hR < hM then
      let sR := (hR * uR - hM * uM) / (hR - hM)
      if sR < 0 then right else mid
    else if uR + cR < 0 then right
    else if 0 < uM + cM then mid
    else
      let a := uR - 2 * cR
      let h := a * a / (9 * g)
      let u := uR - 2 * (cR - Real.sqrt (g * h))
      ⟨h, fun i => if i = dir then h * u else h * vR⟩

/-- `SolveRiemannProblem` of the exact solver with its assertions. /repo/src/equations/ShallowWater.cpp:148-227 -/
noncomputable def swSolve (g : ℝ) (limit : Int) (left right : SwState) (dir : Fin 2) : Option SwState :=
  if 0 < left.height ∧ 0 < right.height then
    match swMiddle g limit left right dir with
    | none => none
    | some middle => if 0 < middle.height then some (swSample g middle left right dir) else none
  else none

/-- One conservative first order update of a line of cells with the HLL flux; `none` is a failed assertion.
/repo/include/fub/flux_method/HllMethod.hpp:191-213, /repo/src/HyperbolicPatchIntegrator.cpp:35-62.
Simplification: the line of cells is infinite. -/
noncomputable def swHllStep (g : ℝ) (dir : Fin 2) (dt dx : ℝ) (u : ℤ → SwState) (i : ℤ) : Option SwState :=
  match hllFlux (swEqn g dir) (swSignals g dir) (u (i - 1)) (u i), hllFlux (swEqn g dir) (swSignals g dir) (u i) (u (i + 1)) with
  | some fL, some fR => some (.ofFn fun c => (u i).get c + dt / dx * (fL c - fR c))
  | _, _ => none

end Fub
