import Verif.Model.MultiBlock
import Verif.Model.CutBoundary
import Verif.Model.Valve

/-!
The boundary condition between a tube and a plenum with a valve: `MultiBlockBoundary`, and the way the first multi-block context combines it with the boundary conditions of the blocks.

Simplifications: a state is a value of any type (all components of a cell are copied with the same condition); `pos` says that its density is positive; the interpolation is C95.
-/

namespace Fub
variable {n : Nat} {α : Type}

/-- The stored states of one side of a joint, after `ComputeBoundaryData`: the converted mirror states where the density is positive; the other cells keep what was there (nothing is stored when the array is made).
/repo/src/AMReX/multi_block/MultiBlockBoundary.cpp:453-461,493-501 -/
def updateStore {β : Type} (pos : β → Bool) (conv : β → α) (mirror : Index n → β) (old : Index n → α) : Index n → α := fun i => if pos (mirror i) then conv (mirror i) else old i

/-- `MultiBlockBoundary::FillBoundary` for a tube, on one patch: `valid` and `grown` are its boxes. /repo/src/AMReX/multi_block/MultiBlockBoundary.cpp:521-567 -/
def tubeJointFill (v : Option ValveState) (ghostCells : IndexBox (n + 1)) (store : Index (n + 1) → α) (pos : α → Bool) (fuel : α → α) (valid grown : IndexBox (n + 1)) (data : Index (n + 1) → α) : Index (n + 1) → α :=
  if v = some .closed then data
  else if boxMeets grown ghostCells then
    let copied := (forEachIndex (boxAnd grown ghostCells)).foldl (fun d i => if pos (store i) then Function.update d i (store i) else d) data
    if v = some .openFuel then
      (forEachIndex valid).foldl (fun d i => if 2 < i 0 ∧ i 0 < 5 ∧ pos (d i) = true then Function.update d i (fuel (d i)) else d) copied
    else copied
  else data

/-- The loop of a closed valve over destinations and sources; `none` is an access outside of the patch. /repo/src/AMReX/multi_block/MultiBlockBoundary.cpp:588-602 -/
def runValve (fab : IndexBox n) (isOpen : Index n → Bool) (pos : α → Bool) (reflect : α → α) : List (Index n × Index n) → (Index n → α) → Option (Index n → α)
  | [], data => some data
  | p :: ps, data =>
    if fab.contains p.1 && fab.contains p.2 then
      runValve fab isOpen pos reflect ps (if isOpen p.2 && pos (data p.2) then Function.update data p.1 (reflect (data p.2)) else data)
    else none

/-- The loop of an open valve: the stored state of the line is copied to all ghost cells of its cross section. /repo/src/AMReX/multi_block/MultiBlockBoundary.cpp:606-618, the index: 47-51 -/
def copyStore (store : Index n → α) (reduce : Index n → Index n) (cells : List (Index n)) (data : Index n → α) : Index n → α :=
  cells.foldl (fun d i => Function.update d i (store (reduce i))) data

/-- `MultiBlockBoundary::FillBoundary` for a plenum, on one patch. /repo/src/AMReX/multi_block/MultiBlockBoundary.cpp:569-620 -/
def plenumJointFill (v : Option ValveState) (ghostCells : IndexBox n) (store : Index n → α) (isOpen : Index n → Bool) (pos : α → Bool) (reflect : α → α) (dir : Fin n) (side : Int) (p : PatchTiles n) (data : Index n → α) :
    Option (Index n → α) :=
  if v = some .closed then runValve p.fab isOpen pos reflect (ghostCopies p.tiles [ghostCells] fun box i => reflectIndex i box dir side) data
  else some (copyStore store (fun i d => if d = dir then i d else 0) ((ghostCopies p.tiles [ghostCells] fun _ i => i).map Prod.fst) data)

/-- `WrapBoundaryCondition::FillBoundary`: the boundary condition of the block, then those of the connections with this block, in their order. /repo/src/AMReX/multi_block/MultiBlockIntegratorContext.cpp:270-328 -/
def wrapFill {D : Type} (base : D → Option D) (conns : List (ℕ × (D → Option D))) (id : ℕ) (data : D) : Option D :=
  (base data).bind fun d => conns.foldlM (fun d c => if id = c.1 then c.2 d else some d) d

end Fub
