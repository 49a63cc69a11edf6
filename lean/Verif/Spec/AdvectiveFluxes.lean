import Verif.Model.AdvectiveFluxes

/-!
# What a user relies on when the advective fluxes of a level are asked for

`GetAdvectiveFluxes(level)` has to return, on every level the hierarchy has, fields on the boxes of this level that are large enough.
-/

namespace Fub

variable {n : Nat} {L K : Type}

/-- The fields `p` fit a level with boxes `ly`: two components on the cells, with one ghost cell more than the scratch; one
component on the faces of each direction, with one ghost face more than the fluxes in this direction. -/
def AdvFits (rank scratchGcw fluxGcw : Nat) (ly : L) (p : AdvFlux n L K) : Prop :=
  (p.onCells.layout = ly ∧ p.onCells.face = none ∧ p.onCells.ncomp = 2 ∧ ∀ i, p.onCells.grow i = scratchGcw + 1) ∧
  ∀ d, (p.onFaces d).layout = ly ∧ (p.onFaces d).face = some d ∧ (p.onFaces d).ncomp = 1 ∧
    (p.onFaces d).grow d = fluxGcw + 1 ∧
    ∀ i, i ≠ d → (p.onFaces d).grow i = if i.val < rank then scratchGcw else 0

/-- Every level of the hierarchy has fitting fields. -/
def AdvAllFit (c : AdvCtx n L K) : Prop :=
  ∀ l ly, c.levels[l]? = some ly → ∃ p, c.fluxes l = some p ∧ AdvFits c.rank c.scratchGcw c.fluxGcw ly p

/-- Nobody wrote a value. -/
def AdvFlux.Unwritten (p : AdvFlux n L K) : Prop :=
  (∀ k x, p.onCells.val k x = none) ∧ ∀ d k x, (p.onFaces d).val k x = none

/-- The hierarchies of a history never have more levels than their largest number of levels, there are at least as many levels as the
number of the first one that changes, and users write only to levels that exist. The arguments are the hierarchy at the start. -/
def AdvOk : List L → Nat → List (AdvOp n L K) → Prop
  | _, _, [] => True
  | ls, m, .regrid first tail :: ops => first ≤ ls.length ∧ (ls.take first ++ tail).length ≤ m ∧ AdvOk (ls.take first ++ tail) m ops
  | _, _, .replace ls' m' :: ops => ls'.length ≤ m' ∧ AdvOk ls' m' ops
  | ls, m, .write l _ _ :: ops => l < ls.length ∧ AdvOk ls m ops
  | ls, m, .copy :: ops => AdvOk ls m ops

end Fub
