import Verif.Model.IndexBox
import Mathlib.Algebra.Order.Field.Basic
import Mathlib.Algebra.BigOperators.Fin
import Mathlib.Algebra.Order.AbsoluteValue.Basic

/-!
Specification for connections through a slanted wall (C203).
-/

namespace Fub
variable {K : Type} [Field K] [LinearOrder K] {n : ℕ}

/-- The wall in the cell `i` is parallel to the wall with unit normal `normal`, whichever way both normals point, up to the tolerance. -/
def OnConnection (nrm : Index n → Fin n → K) (normal : Fin n → K) (tol : K) (i : Index n) : Prop :=
  |(|∑ d, nrm i d * normal d|) - 1| < tol

instance instDecOnConnection (nrm : Index n → Fin n → K) (normal : Fin n → K) (tol : K) : DecidablePred (OnConnection nrm normal tol) :=
  fun _ => inferInstanceAs (Decidable (_ < _))

/-- The cell in front of the wall: one step against the sign of the stored normal in every direction. -/
def inFront (nrm : Index n → Fin n → K) (i : Index n) : Index n :=
  fun d => if 0 < nrm i d then i d - 1 else if nrm i d < 0 then i d + 1 else i d

/-- The state of a cell of full size at the wall: the open part has the state of the cut cell, the rest the state of the cell in front of the wall. -/
def fullCellState (nrm : Index n → Fin n → K) (alpha data : Index n → K) (i : Index n) : K := alpha i * data i + (1 - alpha i) * data (inFront nrm i)

end Fub
