import Verif.Model.ValveJoint

/-! What a closed valve should do: reflect at the plane between the blocks. -/

namespace Fub
variable {n : Nat} {α : Type}

/-- The mirror image of a cell at the plane between the ghost cells and the block, which lies above them (`side = 0`) or below. -/
def jointMirror (ghostCells : IndexBox n) (dir : Fin n) (side : Int) (x : Index n) : Index n :=
  Function.update x dir (if side = 0 then 2 * ghostCells.upper dir - 1 - x dir else 2 * ghostCells.lower dir - 1 - x dir)

/-- The tiles of a patch that reach the ghost cells reach the block too, as tiles grown by ghost cells do. -/
def TilesReach (ghostCells : IndexBox n) (dir : Fin n) (side : Int) (tiles : List (IndexBox n)) : Prop :=
  ∀ t ∈ tiles, if side = 0 then ghostCells.upper dir ≤ t.upper dir else t.lower dir ≤ ghostCells.lower dir

end Fub
