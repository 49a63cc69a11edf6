import Verif.Model.HGrid
import Mathlib.Logic.Function.Basic

/-!
# The sweep over the cells of an embedded boundary

Sources: /repo/include/fub/cutcell_method/MyStabilisation.hpp (`ComputeCutCellFluxes`), /repo/src/cutcell_method/MyStabilisation.cpp,
/repo/include/fub/AMReX/cutcell/MyFluxMethod.hpp (`ComputeNumericFluxes`), /repo/include/fub/AMReX/ForEachFab.hpp (tiles and threads).

One patch with one component of the fluxes in two space dimensions. The fluxes that the flux method computes from the reconstructed stencils are given functions of the face or of the cell: they depend on the states, the
gradients, the reference states and the geometry only, none of which is written here. The stores of one cell are one step: different cells store different values only in different places or the same value.
-/

namespace Fub

section
variable {K : Type} [Field K] [LinearOrder K]

/-- `::amrex::Box` in two dimensions: both corners belong to the box. Serves the model of /repo/include/fub/cutcell_method/MyStabilisation.hpp:441-441. -/
structure Rect where
  lo : ℤ × ℤ
  hi : ℤ × ℤ

/-- `Contains(box, index)`. /repo/include/fub/cutcell_method/MyStabilisation.hpp:441-441 -/
def Rect.has (b : Rect) (i : ℤ × ℤ) : Bool := decide (b.lo.1 ≤ i.1) && decide (i.1 ≤ b.hi.1) && decide (b.lo.2 ≤ i.2) && decide (i.2 ≤ b.hi.2)

/-- What the sweep reads: the direction, the open fractions of the faces, and the fluxes from the reconstructed stencils at the middle of the unshielded part of a face, at the boundary in a cell and at the shielded part next to a cell.
/repo/include/fub/cutcell_method/MyStabilisation.hpp:427-476 -/
structure SweepInput (K : Type) where
  d : Bool
  beta : ℤ × ℤ → K
  reg : ℤ × ℤ → K
  bnd : ℤ × ℤ → K
  sh : ℤ × ℤ → K

/-- The arrays that are written. /repo/include/fub/AMReX/cutcell/MyFluxMethod.hpp:240-245 -/
structure SweepFields (K : Type) where
  regular : ℤ × ℤ → K
  shL : ℤ × ℤ → K
  shR : ℤ × ℤ → K
  bnd : ℤ × ℤ → K
  stable : ℤ × ℤ → K

/-- The parts of a face of the patch. /repo/src/AMReX/cutcell/FillCutCellData.cpp:107-117 -/
def SweepInput.parts (p : SweepInput K) (f : ℤ × ℤ) : FaceParts K := fillCutCellLane (p.beta (shift2 p.d (-1) f)) (p.beta f) (p.beta (shift2 p.d 1 f))

/-- The regular flux of a face: zero without an unshielded part. /repo/include/fub/cutcell_method/MyStabilisation.hpp:441-466 -/
def storeRegular (F : Rect) (p : SweepInput K) (s : SweepFields K) (f : ℤ × ℤ) : SweepFields K :=
  if F.has f then { s with regular := Function.update s.regular f (if 0 < (p.parts f).us then p.reg f else 0) } else s

/-- One cell of the sweep. /repo/include/fub/cutcell_method/MyStabilisation.hpp:431-498 -/
def sweepCell (F : Rect) (p : SweepInput K) (s : SweepFields K) (c : ℤ × ℤ) : SweepFields K :=
  let fR := shift2 p.d 1 c
  let s1 := storeRegular F p (storeRegular F p s fR) c
  if p.beta c = p.beta fR then s1
  else
    let s2 := { s1 with bnd := Function.update s1.bnd c (p.bnd c) }
    if p.beta c < p.beta fR then
      if F.has fR then { s2 with shL := Function.update s2.shL fR (p.sh c) } else s2
    else if p.beta fR < p.beta c then
      if F.has c then { s2 with shR := Function.update s2.shR c (p.sh c) } else s2
    else s2

/-- The stabilised flux of one face. /repo/src/cutcell_method/MyStabilisation.cpp:67-79 -/
def combineFace (p : SweepInput K) (s : SweepFields K) (f : ℤ × ℤ) : SweepFields K :=
  { s with stable := Function.update s.stable f (myStable (p.parts f) (s.regular f) (s.shL f) (s.shR f)) }

/-- The cells of a tile that are swept: `enclosedCells(surroundingNodes(tilebox, dir) & fluxes.box())`. /repo/include/fub/AMReX/cutcell/MyFluxMethod.hpp:292-296 -/
def tileCells (d : Bool) (tile F : Rect) : Rect :=
  if d then ⟨(max tile.lo.1 F.lo.1, max tile.lo.2 F.lo.2), (min (tile.hi.1 + 1) F.hi.1 - 1, min tile.hi.2 F.hi.2)⟩
  else ⟨(max tile.lo.1 F.lo.1, max tile.lo.2 F.lo.2), (min tile.hi.1 F.hi.1, min (tile.hi.2 + 1) F.hi.2 - 1)⟩

/-- The indices of a box in the order of `ForEachIndex`: the first index runs fastest. /repo/include/fub/ForEach.hpp:33-45 -/
def Rect.points (b : Rect) : List (ℤ × ℤ) :=
  (List.range (b.hi.2 + 1 - b.lo.2).toNat).flatMap fun j : ℕ => (List.range (b.hi.1 + 1 - b.lo.1).toNat).map fun i : ℕ => (b.lo.1 + (i : ℤ), b.lo.2 + (j : ℤ))

/-- `ComputeCutCellFluxes` for one tile: the cells of the tile are swept and then all faces of the patch are combined.
/repo/include/fub/cutcell_method/MyStabilisation.hpp:410-523, /repo/include/fub/AMReX/cutcell/MyFluxMethod.hpp:289-331 -/
def sweepTile (F : Rect) (p : SweepInput K) (s : SweepFields K) (tile : Rect) : SweepFields K :=
  F.points.foldl (combineFace p) ((tileCells p.d tile F).points.foldl (sweepCell F p) s)

/-- The tiles of a patch one after the other, as with one thread. /repo/include/fub/AMReX/ForEachFab.hpp:48-57 -/
def sweepPatch (F : Rect) (p : SweepInput K) (s : SweepFields K) (tiles : List Rect) : SweepFields K := tiles.foldl (sweepTile F p) s

/-! ### Threads -/

/-- A step of the thread that works on the tile with the given number. `read` and `write` are the two halves of `combine`: the loads of the three fluxes of a face, and the store of the stabilised flux.
/repo/src/cutcell_method/MyStabilisation.cpp:55-79 -/
inductive TileOp where
  | sweep (t : ℕ) (c : ℤ × ℤ)
  | combine (t : ℕ) (f : ℤ × ℤ)
  | read (t : ℕ) (f : ℤ × ℤ)
  | write (t : ℕ) (f : ℤ × ℤ)
  deriving DecidableEq

/-- The tile whose thread makes the step. Serves the model of /repo/include/fub/AMReX/cutcell/MyFluxMethod.hpp:292-296. -/
def TileOp.tile : TileOp → ℕ
  | .sweep t _ => t
  | .combine t _ => t
  | .read t _ => t
  | .write t _ => t

/-- A step: the second component of the state are the values in the registers of the threads. /repo/include/fub/cutcell_method/MyStabilisation.hpp:431-511, /repo/src/cutcell_method/MyStabilisation.cpp:55-79 -/
def runTileOp (F : Rect) (p : SweepInput K) (st : SweepFields K × (ℕ → K)) : TileOp → SweepFields K × (ℕ → K)
  | .sweep _ c => (sweepCell F p st.1 c, st.2)
  | .combine _ f => (combineFace p st.1 f, st.2)
  | .read t f => (st.1, Function.update st.2 t (myStable (p.parts f) (st.1.regular f) (st.1.shL f) (st.1.shR f)))
  | .write t f => ({ st.1 with stable := Function.update st.1.stable f (st.2 t) }, st.2)

/-- The steps of the thread that works on tile `t`, if the combination of a face cannot be interrupted. /repo/include/fub/AMReX/cutcell/MyFluxMethod.hpp:289-331 -/
def tileProgram (d : Bool) (F : Rect) (t : ℕ) (tile : Rect) : List TileOp :=
  ((tileCells d tile F).points.map fun c : ℤ × ℤ => TileOp.sweep t c) ++ (F.points.map fun f : ℤ × ℤ => TileOp.combine t f)

/-- The programs of the threads for a list of tiles, the first with number `n`. /repo/include/fub/AMReX/ForEachFab.hpp:48-57 -/
def tilePrograms (d : Bool) (F : Rect) : ℕ → List Rect → List (List TileOp)
  | _, [] => []
  | n, t :: ts => tileProgram d F n t :: tilePrograms d F (n + 1) ts

/-- The loads and the store of a combination as steps of their own. /repo/src/cutcell_method/MyStabilisation.cpp:55-79 -/
def TileOp.split : TileOp → List TileOp
  | .combine t f => [.read t f, .write t f]
  | op => [op]

/-- The programs with loads and stores as steps of their own. /repo/include/fub/AMReX/cutcell/MyFluxMethod.hpp:289-331 -/
def tileProgramsSplit (d : Bool) (F : Rect) (tiles : List Rect) : List (List TileOp) := (tilePrograms d F 0 tiles).map fun l : List TileOp => l.flatMap TileOp.split

/-- A schedule: every thread makes its steps in its order, and no other steps are made. /repo/include/fub/AMReX/ForEachFab.hpp:48-57 -/
def IsSchedule (progs : List (List TileOp)) (sched : List TileOp) : Prop :=
  ∀ t : ℕ, sched.filter (fun o : TileOp => decide (o.tile = t)) = progs.getD t []

end

end Fub
