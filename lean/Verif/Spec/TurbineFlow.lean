import Verif.Model.TurbineFlow
import Verif.Spec.PatchIntegrator
import Mathlib.Algebra.Order.Field.Basic
import Mathlib.Algebra.BigOperators.Field

/-!
What the mass flow boundaries are relied on for.
-/

namespace Fub
open Finset
variable {n : Nat} {K Q κ : Type} [Field K] [LinearOrder K]

/-- The mass that a state carries through the area `A` per time: the conserved component `m` is the momentum normal to the boundary. -/
def FlowOps.flow (ops : FlowOps K Q κ) (m : κ) (A : K) (q : Q) : K := A * ops.cons q m

/-- For the pairs `P` of a demanded flow and a state: the transformation of the state, whenever it returns, reaches the demanded flow up to `ε`. -/
def FlowOps.Reaches (ops : FlowOps K Q κ) (m : κ) (A ε : K) (P : K → Q → Prop) : Prop :=
  ∀ r q q', P r q → ops.transform r q = some q' → |ops.flow m A q' - r| ≤ ε

/-- The flow that the cells of a box demand together, divided by their number. -/
def meanDemand (ops : FlowOps K Q κ) (level : Index n → Q) (box : IndexBox n) : K := (∑ i ∈ box.finset, ops.required (level i)) / box.finset.card

end Fub
