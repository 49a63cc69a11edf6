import Verif.Model.AxialAmr
import Verif.Spec.Amr

/-!
# Content of a tube on refined grids
-/

namespace Fub
open Finset
variable {K X : Type} [Field K]

/-- Volume of a cell of the tube: its length times the mean of the areas at its ends. -/
def axialVolume (dx : Nat → Fin 1 → K) (area : Nat → Int → K) (l : Nat) (i : Index 1) : K := dx l 0 * ((area l (i 0) + area l (i 0 + 1)) / 2)

/-- Amount of the conserved variable in the tube: every point counts with the finest level that covers it. -/
def axialComposite (g : Grids 1) (dx : Nat → Fin 1 → K) (area : Nat → Int → K) (s : AmrState 1 K X) : K :=
  ∑ l ∈ range g.levels, ∑ i ∈ g.valid l, axialVolume dx area l i * s.u l i

/-- What one update lets into the tube through its ends: step size times area times flux. -/
def axialInflow (g : Grids 1) (area : Nat → Int → K) (e : FluxUse 1 K) : K :=
  e.dt * (∑ i ∈ (g.valid e.level).filter (fun i => shift i e.dir (-1) ∉ g.domain e.level), area e.level (i 0) * e.flux i -
    ∑ i ∈ (g.valid e.level).filter (fun i => shift i e.dir 1 ∉ g.domain e.level), area e.level (i 0 + 1) * e.flux (shift i e.dir 1))

/-- The tube is straight in every uncovered cell next to a covered one: the areas at both ends of the cell are equal. -/
def StraightAtInterfaces (g : Grids 1) (area : Nat → Int → K) : Prop :=
  ∀ l, ∀ i ∈ g.valid l, (shift i 0 (-1) ∈ g.covered l ∨ shift i 0 1 ∈ g.covered l) → area l (i 0) = area l (i 0 + 1)

end Fub
