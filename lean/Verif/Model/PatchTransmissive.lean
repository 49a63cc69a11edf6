import Verif.Model.IndexBox

/-!
# Transmissive boundaries on a single patch

Model of `/repo/include/fub/boundary_condition/TransmissiveBoundary.hpp`. A view is its box and a function of the index; a load outside of the box is `none`.
-/

namespace Fub

/-- The loop over the cells to fill: the state is loaded from the cell with the index `source` in the direction `dir` and stored, after `clean`.
/repo/include/fub/boundary_condition/TransmissiveBoundary.hpp:56-62, 66-73 -/
def transmissiveLoop {n : ℕ} {V : Type*} (box fill : IndexBox n) (dir : Fin n) (source : ℤ) (clean : V → V) (data : Index n → V) : Option (Index n → V) :=
  (forEachIndex fill).foldlM (fun d i =>
    let s := Function.update i dir source
    if box.contains s then some (Function.update d i (clean (d s))) else none) data

/-- The boundary condition on the view of a patch that is given together with its ghost cells; a side that is neither 0 nor 1 violates an assertion.
/repo/include/fub/boundary_condition/TransmissiveBoundary.hpp:44-75, 77-117. `clean` is the identity for patches without embedded boundaries. -/
def patchTransmissive {n : ℕ} {V : Type*} (clean : V → V) (box : IndexBox n) (dir : Fin n) (side width : ℤ) (data : Index n → V) : Option (Index n → V) :=
  if side = 0 then
    let upper := Function.update box.upper dir (box.lower dir + width)
    transmissiveLoop box ⟨box.lower, upper⟩ dir (upper dir) clean data
  else if side = 1 then
    let lower := Function.update box.lower dir (box.upper dir - width)
    transmissiveLoop box ⟨lower, box.upper⟩ dir (box.upper dir - width - 1) clean data
  else none

/-- `if (!AnyNaN(state_))`, with embedded boundaries: the fallback replaces states that are not numbers.
/repo/include/fub/boundary_condition/TransmissiveBoundary.hpp:95-99, 110-114 -/
def replaceNaN {V : Type*} (nan : V → Bool) (fallback v : V) : V := if !nan v then v else fallback

end Fub
