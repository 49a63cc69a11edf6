import Verif.Model.PatchIntegrator

/-!
# The regular fluxes of a cut-cell sweep on memory

Model of `ComputeRegularFluxes` in `/repo/include/fub/cutcell_method/KbnStabilisation.hpp` and `/repo/include/fub/cutcell_method/MyStabilisation.hpp` and of the
masked `ComputeNumericFlux` in `/repo/include/fub/flux_method/MusclHancockMethod2.hpp`. A vector operation is the scalar operation on every lane, as in
the model of the sweeps without cut cells. The assertions on NaN values are not modelled.
-/

namespace Fub
variable {K : Type}

/-- The views read in one sweep, in the order in which they are handed to `ForEachRow`: the face fractions, the volume fractions of the `2 W` cells around the face, the
states in these cells and (only `MyCutCellMethod`, with `W = 1`) the gradients in them.
/repo/include/fub/cutcell_method/KbnStabilisation.hpp:352-374, /repo/include/fub/cutcell_method/MyStabilisation.hpp:322-348 -/
def cutSources {n : ℕ} (W : ℕ) (fluxbox : IndexBox n) (faces volumes : PatchView n) (states grads : List (PatchView n)) (d : Fin n) :
    List (PatchView n) :=
  faces.subview fluxbox :: (stencilViews W fluxbox [volumes] d ++ (stencilViews W fluxbox states d ++ stencilViews W fluxbox grads d))

/-- `ComputeRegularFluxes`: `F` is the method's masked flux of one lane, a function of the face fraction, the volume fractions, the states and the
gradients; `none` if the row loop runs out of fuel. /repo/include/fub/cutcell_method/KbnStabilisation.hpp:347-429,
/repo/include/fub/cutcell_method/MyStabilisation.hpp:312-408 -/
def cutRegularFluxes {n : ℕ} (F : List K → List K) (fuel w : ℕ) (hw : 0 < w) (W : ℕ) (flux : PatchView n) (fluxes : List (PatchView n))
    (faces volumes : PatchView n) (states grads : List (PatchView n)) (d : Fin n) (m : Mem K) : Option (Mem K) :=
  (forEachRow fuel (((flux :: fluxes) ++ cutSources W flux.box faces volumes states grads d).map PatchView.mds)).map fun rows =>
    rows.foldl (fluxRowFn F w hw (fluxes.length + 1)) m

/-- One lane of the masked `MusclHancock2::ComputeNumericFlux` with four cells. `grad`, `rec` (of a state and a gradient, to the upper side or not) and `base` (of the face
fraction and two states) are the parts it is composed of. /repo/include/fub/flux_method/MusclHancockMethod2.hpp:190-238 -/
def muscl2Masked [Zero K] [LT K] [DecidableLT K] {S G R : Type} [Zero G] (grad : S → S → S → G) (rec : S → G → Bool → S) (base : K → S → S → R)
    (β : K) (α : Fin 4 → K) (q : Fin 4 → S) : R :=
  let gradL := grad (q 0) (q 1) (q 2)
  let gradR := grad (q 1) (q 2) (q 3)
  let leftMask := 0 < α 0 ∧ 0 < α 1 ∧ 0 < α 2
  let rightMask := 0 < α 1 ∧ 0 < α 2 ∧ 0 < α 3
  let gL := if leftMask then gradL else 0
  let gR := if rightMask then gradR else 0
  base β (rec (q 1) gL true) (rec (q 2) gR false)

/-- The lane as a function of the loaded numbers: the face fraction, four volume fractions and four states of `c` components.
Serves the model of /repo/include/fub/cutcell_method/KbnStabilisation.hpp:394-400. -/
def muscl2Lane [Zero K] [LT K] [DecidableLT K] {G : Type} [Zero G] (c : ℕ) (grad : List K → List K → List K → G)
    (rec : List K → G → Bool → List K) (base : K → List K → List K → List K) (l : List K) : List K :=
  muscl2Masked grad rec base (l.getD 0 0) (fun k => l.getD (1 + k) 0) (fun k => (l.drop (5 + k * c)).take c)

end Fub
