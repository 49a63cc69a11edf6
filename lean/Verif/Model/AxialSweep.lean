import Verif.Model.PatchIntegrator
import Verif.Model.AxialTube

/-!
The flux sweep of tubes with a varying cross section: it stores the numeric fluxes and, in an array of its own, the pressures at the faces.

Simplifications: as in `Verif.Model.PatchIntegrator`. The flux method is a function from the loaded components of the `2 W` cells around a face to the flux components
and the pressure; a vector operation applies it to every lane.
-/

namespace Fub
variable {K : Type}

/-- What one vector of the sweep writes, in the order of the stores: `Store` (or `StoreN`) of the flux components of all lanes, then the pressures of all lanes. All lanes were loaded
from `m`. /repo/include/fub/AMReX/AxialFluxMethodAdapter.hpp:218-225,233-242 -/
def axialStores (F : List K → List K × K) (m : Mem K) (states fit : List Int) (p : Int) (k : Nat) : Mem K :=
  let m1 := (List.range k).foldl (fun (m' : Mem K) (j : Nat) =>
    writeList m' (fit.map fun a => a + (j : Int)) (F (states.map fun a => m (a + (j : Int)))).1) m
  (List.range k).foldl (fun (m' : Mem K) (j : Nat) => Function.update m' (p + (j : Int)) (F (states.map fun a => m (a + (j : Int)))).2) m1

/-- The loop over one row with the pointers to the fluxes, to the pressures and to the states. /repo/include/fub/AMReX/AxialFluxMethodAdapter.hpp:212-243 -/
def axialRow (F : List K → List K × K) (w : Nat) (hw : 0 < w) (m : Mem K) (states fit : List Int) (p : Int) (n : Nat) : Mem K :=
  if w ≤ n then
    axialRow F w hw (axialStores F m states fit p w) (states.map fun a => a + (w : Int)) (fit.map fun a => a + (w : Int)) (p + (w : Int)) (n - w)
  else axialStores F m states fit p n
termination_by n
decreasing_by omega

/-- The row function: the first `nf` rows are the flux components, the next one is the row of pressures, the others are the states.
/repo/include/fub/AMReX/AxialFluxMethodAdapter.hpp:209-216 -/
def axialRowFn (F : List K → List K × K) (w : Nat) (hw : 0 < w) (nf : Nat) (m : Mem K) (rows : List RowRef) : Mem K :=
  axialRow F w hw m ((rows.drop (nf + 1)).map RowRef.start) ((rows.take nf).map RowRef.start) ((rows.map RowRef.start).getD nf 0)
    ((rows.map RowRef.len).headD 0)

/-- `ComputeNumericFluxes` on the views of one patch; `none` if the row loop runs out of fuel. /repo/include/fub/AMReX/AxialFluxMethodAdapter.hpp:185-244 -/
def axialSweep {n : Nat} (F : List K → List K × K) (fuel w : Nat) (hw : 0 < w) (W : Nat) (flux : PatchView n) (fluxes : List (PatchView n))
    (pressure : PatchView n) (states : List (PatchView n)) (d : Fin n) (m : Mem K) : Option (Mem K) :=
  (forEachRow fuel (((flux :: fluxes) ++ pressure :: stencilViews W flux.box states d).map PatchView.mds)).map fun rows =>
    rows.foldl (axialRowFn F w hw (fluxes.length + 1)) m

/-- `AllocatePressureIfNeeded`: the layout (boxes, distribution and ghost cells) of the pressures of every level; `none` in the list is a level whose pressures are not
defined yet. The result `none` is an access outside of the vector. /repo/include/fub/AMReX/AxialFluxMethodAdapter.hpp:132-147 -/
def allocatePressure {B : Type} [DecidableEq B] (nlevels level : Nat) (layout : B) (store : List (Option B)) : Option (List (Option B)) :=
  let store := if store.length ≤ level then store.take nlevels ++ List.replicate (nlevels - store.length) none else store
  if level < store.length then some (if store.getD level none = some layout then store else store.set level (some layout)) else none

end Fub
