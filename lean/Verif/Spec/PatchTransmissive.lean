import Verif.Model.PatchTransmissive

/-!
# Which cells a boundary condition fills, and from where
-/

namespace Fub
variable {n : ℕ}

/-- The index of the first cell behind the cells that are filled on a side, and the cells that are filled. -/
def interiorNext (box : IndexBox n) (dir : Fin n) (side width : ℤ) : ℤ := if side = 0 then box.lower dir + width else box.upper dir - width - 1

/-- A cell of the box among the first `width` (side 0) or last `width` (side 1) in the direction. -/
def IsFilled (box : IndexBox n) (dir : Fin n) (side width : ℤ) (i : Index n) : Prop :=
  (∀ e, box.lower e ≤ i e ∧ i e < box.upper e) ∧ if side = 0 then i dir < box.lower dir + width else box.upper dir - width ≤ i dir

end Fub
