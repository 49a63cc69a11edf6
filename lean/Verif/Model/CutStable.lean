import Verif.Model.PatchIntegrator
import Verif.Model.PatchSweep
import Mathlib.Algebra.Order.Group.Abs

/-!
# The stable time step of the cut-cell methods

Model of `ComputeStableDt` in `/repo/include/fub/cutcell_method/MyStabilisation.hpp`, `/repo/include/fub/cutcell_method/KbnStabilisation.hpp`
(the same text), `/repo/include/fub/flux_method/HllMethod.hpp`, `/repo/include/fub/AMReX/cutcell/MyFluxMethod.hpp` and
`/repo/include/fub/AMReX/cutcell/FluxMethod.hpp`. The row iteration is taken from its specification (C23). Views whose box is not in order, an
assertion failure in the code, are not modelled.
-/

namespace Fub
variable {K : Type} [Field K] [LinearOrder K]

/-- One lane of the masked `ComputeStableDt` of the HLL method: `big` stands for `numeric_limits<double>::max()`.
/repo/include/fub/flux_method/HllMethod.hpp:349-365 -/
def hllMaskedDt (big dx β : K) (signals : List K) : K :=
  let max := signals.foldl (fun x y => max x |y|) 0
  let safe := if 0 < β then max else 1
  if 0 < β then dx / safe else big

/-- The lanes of a vector of width `w` of which the first ones are loaded: the other lanes have face fraction zero.
/repo/include/fub/cutcell_method/MyStabilisation.hpp:298-307 -/
def padLanes (w : ℕ) (big : K) (vals : List K) : List K := vals ++ List.replicate (w - vals.length) big

/-- The chunked loop over one row. /repo/include/fub/cutcell_method/MyStabilisation.hpp:267-308, /repo/include/fub/cutcell_method/KbnStabilisation.hpp:304-343 -/
def cutMinRow (w : ℕ) (hw : 0 < w) (big : K) (acc : WithTop K) (vals : List K) : WithTop K :=
  if w ≤ vals.length then
    cutMinRow w hw big ((vals.take w).foldl (fun (a : WithTop K) (x : K) => min a (x : WithTop K)) acc) (vals.drop w)
  else (padLanes w big vals).foldl (fun (a : WithTop K) (x : K) => min a (x : WithTop K)) acc
termination_by vals.length
decreasing_by simp; omega

/-- `ComputeStableDt(states, geom, dx, dir)` with stencil width `W`: the `j`-th face of a row is combined with the `j`-th stencil. `dtAt β i` is the
masked value of the base method for the stencil whose first cell is `i`.
/repo/include/fub/cutcell_method/MyStabilisation.hpp:238-310, /repo/include/fub/cutcell_method/KbnStabilisation.hpp:277-345 -/
def cutStableDt {n : ℕ} (w : ℕ) (hw : 0 < w) (big : K) (W : ℕ) (cellbox : IndexBox (n + 1)) (d : Fin (n + 1)) (face : Index (n + 1) → K)
    (dtAt : K → Index (n + 1) → K) : WithTop K :=
  let fluxbox := cellbox.shrink d W ((W : ℤ) - 1)
  let first := cellbox.shrink d 0 (2 * (W : ℤ) - 1)
  ((boxRows fluxbox).zip (boxRows first)).foldl (fun acc r => cutMinRow w hw big acc (List.zipWith (fun f c => dtAt (face f) c) r.1 r.2)) ⊤

/-- `FabType` of a patch. Serves the model of /repo/include/fub/AMReX/cutcell/MyFluxMethod.hpp:380-389. -/
inductive CutFabKind
  | covered
  | regular
  | singlevalued
deriving DecidableEq

/-- One step of the loop over the patches: the kind of the patch, the box of its scratch data and the tile of faces.
Serves the model of /repo/include/fub/AMReX/cutcell/MyFluxMethod.hpp:372-390. -/
structure CutTile (d : ℕ) where
  kind : CutFabKind
  scratch : PatchBox d
  tile : PatchBox d

/-- `AsIndexBox` of an AMReX box, whose upper corner belongs to it. Serves the model of /repo/include/fub/AMReX/cutcell/MyFluxMethod.hpp:376-379. -/
def PatchBox.toIndexBox {d : ℕ} (b : PatchBox d) : IndexBox d := ⟨b.lo, fun i => b.hi i + 1⟩

/-- `ComputeStableDt(context, level, dir)`: the method has stencil width `W`, the views are made for the width `gcw`; `face` and `dtAt` belong to the level, `openDt`
is the value of the base method without mask. /repo/include/fub/AMReX/cutcell/MyFluxMethod.hpp:361-392, /repo/include/fub/AMReX/cutcell/FluxMethod.hpp:258-289 -/
def cutLevelDt {n : ℕ} (w : ℕ) (hw : 0 < w) (big : K) (W gcw : ℕ) (d : Fin (n + 1)) (face : Index (n + 1) → K) (dtAt : K → Index (n + 1) → K)
    (openDt : Index (n + 1) → K) (tiles : List (CutTile (n + 1))) : WithTop K :=
  tiles.foldl (fun acc t =>
    let cells := (cellsAndFaces t.scratch t.tile gcw d).1.toIndexBox
    match t.kind with
    | .singlevalued => min acc (cutStableDt w hw big W cells d face dtAt)
    | .regular => min acc (stableDtSimd w hw (2 * W) cells d openDt)
    | .covered => acc) ⊤

end Fub
