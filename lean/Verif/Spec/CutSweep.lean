import Verif.Model.CutSweep

/-! # Specification for the sweep over the cells of an embedded boundary -/

namespace Fub

section
variable {K : Type} [Field K] [LinearOrder K]

/-- Index `i` lies in the box. -/
def InRect (b : Rect) (i : ℤ × ℤ) : Prop := (b.lo.1 ≤ i.1 ∧ i.1 ≤ b.hi.1) ∧ (b.lo.2 ≤ i.2 ∧ i.2 ≤ b.hi.2)

instance (b : Rect) (i : ℤ × ℤ) : Decidable (InRect b i) := by
  unfold InRect
  infer_instance

/-- The neighbour of a face or cell in the direction of the split. -/
def prevIdx (d : Bool) (i : ℤ × ℤ) : ℤ × ℤ := if d then (i.1 - 1, i.2) else (i.1, i.2 - 1)

/-- The other neighbour. -/
def nextIdx (d : Bool) (i : ℤ × ℤ) : ℤ × ℤ := if d then (i.1 + 1, i.2) else (i.1, i.2 + 1)

/-- Some of the tiles holds cell `c`. -/
def Covered (tiles : List Rect) (c : ℤ × ℤ) : Prop := ∃ t ∈ tiles, InRect t c

/-- The stabilised flux of face `f` from the fluxes at its unshielded part and its two shielded parts: the mean with respect to the shares of the parts in the open part of the face. -/
def IsFaceMixture (p : SweepInput K) (f : ℤ × ℤ) (v : K) : Prop :=
  v = (p.parts f).usRel * p.reg f + (p.parts f).sLRel * p.sh (prevIdx p.d f) + (p.parts f).sRRel * p.sh f

end

end Fub
