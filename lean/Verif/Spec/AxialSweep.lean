import Verif.Model.AxialSweep
import Verif.Spec.PatchIntegrator

namespace Fub

/-- What the sweep of a tube should do to memory: at every face the flux components and the pressure are the two results of the method for the `2 W` cells around the face,
ordered from left to right; everything else is untouched. -/
structure IsAxialSweep {K : Type} {n : Nat} (F : List K → List K × K) (W : Nat) (fluxes : List (PatchView n)) (pressure : PatchView n)
    (states : List (PatchView n)) (box : IndexBox n) (d : Fin n) (m m' : Mem K) : Prop where
  faces : ∀ i ∈ box.toSet,
    (fluxes.map (fun v => m' (v.addr i)), m' (pressure.addr i)) =
      F ((List.range (2 * W)).flatMap fun k : Nat => states.map fun v => m (v.addr (shift i d ((k : Int) - W))))
  others : ∀ a, (∀ i ∈ box.toSet, a ≠ pressure.addr i ∧ ∀ v ∈ fluxes, a ≠ v.addr i) → m' a = m a

end Fub
