import Verif.Model.IndexBox
import Mathlib.Data.Set.Basic

namespace Fub

/-- The set of indices a box stands for: the product of half open intervals. -/
def IndexBox.toSet {n : Nat} (b : IndexBox n) : Set (Index n) := {i | ∀ d, b.lower d ≤ i d ∧ i d < b.upper d}

/-- Column-major order: compare the last coordinate in which two indices differ. -/
def ColMajorLT {n : Nat} (i j : Index n) : Prop := ∃ d : Fin n, i d < j d ∧ ∀ e, d < e → i e = j e

end Fub
