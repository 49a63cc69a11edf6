import Verif.Model.PatchIntegrator
import Verif.Model.CutStable
import Verif.Model.Gas
import Mathlib.Logic.Function.Basic
import Mathlib.Order.Defs.LinearOrder

/-!
# Recomputing the complete states on patches with an embedded boundary

Model of `/repo/include/fub/AMReX/cutcell/Reconstruction.hpp` and of the overloads of `CompleteFromCons` in `/repo/include/fub/CompleteFromCons.hpp` it calls. A state
is the content of a cell; conversions between the conservative part and the complete state are inside the functions `complete` and `lane`. The update
is in place, as in the code. The row iteration is taken from its specification (C23).
-/

namespace Fub
variable {S K : Type} [Zero K] [LinearOrder K]

/-- `Store(out, complete_)` and `StoreN(out, complete_, n)`: one lane per cell. Serves the model of /repo/include/fub/AMReX/cutcell/Reconstruction.hpp:144, 155. -/
def storeCells {n : ℕ} (q : Index n → S) (cells : List (Index n)) (vals : List S) : Index n → S :=
  (cells.zip vals).foldl (fun q p => Function.update q p.1 p.2) q

/-- The scalar kernel with volume fractions: covered cells are skipped. /repo/include/fub/AMReX/cutcell/Reconstruction.hpp:76-88 -/
def cutCompleteScalar {n : ℕ} (complete : S → S) (gas : Index n → Bool) (box : IndexBox n) (q : Index n → S) : Index n → S :=
  (forEachIndex box).foldl (fun q c => if gas c then Function.update q c (complete (q c)) else q) q

/-- The vector kernel on one row. The member `complete_` has the lanes `s.2`; `lane mask cell old` is the new content of a lane. In the last chunk the lanes beyond the end of
the row have the mask `pad` and no data (`blank`). All lanes with a cell are stored, also those of covered cells.
/repo/include/fub/AMReX/cutcell/Reconstruction.hpp:128-156; with `pad` and the masks `true` lines 101-121 -/
def cutCompleteRow {n : ℕ} (w : ℕ) (hw : 0 < w) (lane : Bool → S → S → S) (blank : S) (pad : Bool) (gas : Index n → Bool) (s : (Index n → S) × List S)
    (row : List (Index n)) : (Index n → S) × List S :=
  if w ≤ row.length then
    let chunk := row.take w
    let vals := List.zipWith (fun c old => lane (gas c) (s.1 c) old) chunk s.2
    cutCompleteRow w hw lane blank pad gas (storeCells s.1 chunk vals, vals) (row.drop w)
  else
    let vals := List.zipWith (fun c old => lane (gas c) (s.1 c) old) row s.2 ++ (s.2.drop row.length).map fun old => lane pad blank old
    (storeCells s.1 row vals, vals)
termination_by row.length
decreasing_by simp; omega

/-- The vector kernel on a tile: the lanes persist from row to row. /repo/include/fub/AMReX/cutcell/Reconstruction.hpp:92-157 -/
def cutCompleteSimd {n : ℕ} (w : ℕ) (hw : 0 < w) (lane : Bool → S → S → S) (blank : S) (pad : Bool) (gas : Index (n + 1) → Bool) (box : IndexBox (n + 1))
    (s : (Index (n + 1) → S) × List S) : (Index (n + 1) → S) × List S :=
  (boxRows box).foldl (cutCompleteRow w hw lane blank pad gas) s

/-- The mask of the cells with gas. /repo/include/fub/AMReX/cutcell/Reconstruction.hpp:81-82, 141-142, 152-154 -/
def gasMask {n : ℕ} (vol : Index n → K) (c : Index n) : Bool := decide (0 < vol c)

/-- `Reconstruction::CompleteFromCons(context, level, dt)` with a vector tag: the kernel depends on the kind of the tile; `plain` is the version of `CompleteFromCons` without a mask. The kernel, and with it the lanes, persists from
tile to tile; several threads, each with its own kernel, are not modelled. /repo/include/fub/AMReX/cutcell/Reconstruction.hpp:169-193 -/
def cutCompleteLevel {n : ℕ} (w : ℕ) (hw : 0 < w) (lane : Bool → S → S → S) (plain : S → S) (blank : S) (vol : Index (n + 1) → K)
    (tiles : List (CutFabKind × IndexBox (n + 1))) (s : (Index (n + 1) → S) × List S) : (Index (n + 1) → S) × List S :=
  tiles.foldl (fun s t => match t.1 with
    | .regular => cutCompleteSimd w hw (fun _ cell _ => plain cell) blank true (fun _ => true) t.2 s
    | .singlevalued => cutCompleteSimd w hw lane blank false (gasMask vol) t.2 s
    | .covered => s) s

/-- The same with a tag without vectors. /repo/include/fub/AMReX/cutcell/Reconstruction.hpp:60-89, 169-193 -/
def cutCompleteLevelScalar {n : ℕ} (complete : S → S) (vol : Index n → K) (tiles : List (CutFabKind × IndexBox n)) (q : Index n → S) : Index n → S :=
  tiles.foldl (fun q t => match t.1 with
    | .regular => cutCompleteScalar complete (fun _ => true) t.2 q
    | .singlevalued => cutCompleteScalar complete (gasMask vol) t.2 q
    | .covered => q) q

/-- The lane of an equation without a `CompleteFromCons` of its own (advection, shallow water, Burgers): `dest = mask.select(src, dest)`.
/repo/include/fub/CompleteFromCons.hpp:90-107 -/
def laneSelect (mask : Bool) (cell old : S) : S := if mask then cell else old

/-- The lane of the perfect gas. /repo/include/fub/CompleteFromCons.hpp:96-99, /repo/src/equations/PerfectGas.cpp:126-144 -/
noncomputable def gasLane {d : ℕ} (eq : GasEq) (mask : Bool) (cell _old : GasComplete d) : GasComplete d := gasCompleteMasked eq cell.cons mask

end Fub
