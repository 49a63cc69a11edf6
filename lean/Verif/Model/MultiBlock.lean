import Verif.Model.Average
import Verif.Model.GasMix
import Mathlib.Algebra.Order.Floor.Semiring

/-!
Coupling of one-dimensional tubes with a multi-dimensional plenum. Source: `/repo/src/AMReX/multi_block/MultiBlockBoundary2.cpp` (the interpolation, the averages and the boxes are the same in
`/repo/src/AMReX/multi_block/MultiBlockBoundary.cpp:45-300`) and `/repo/src/AMReX/multi_block/MultiBlockIntegratorContext2.cpp`.

Simplifications: exact numbers instead of `double`; one component at a time; boxes are represented by their extent in the direction of the connection where the other directions play no role.
-/

namespace Fub

section Interpolation
variable {K : Type} [Field K] [LinearOrder K]

/-- The inner loop over the source cells that lie completely in a destination cell; reading behind the end of the source is an error (`span::operator[]` does not check it).
/repo/src/AMReX/multi_block/MultiBlockBoundary2.cpp:282-286 -/
def interpWhile (src : List K) (H h : K) (idx : ℕ) (sum acc : K) : Option (ℕ × K × K) :=
  if sum + h ≤ H then
    if hlt : idx < src.length then interpWhile src H h (idx + 1) (sum + h) (acc + h / H * src[idx]) else none
  else some (idx, sum, acc)
termination_by src.length - idx

/-- One destination cell of `InterpolateStates_Greater`: the value, the next source index and the used part of this source cell. /repo/src/AMReX/multi_block/MultiBlockBoundary2.cpp:273-291 -/
def interpCell (src : List K) (H h : K) (idx : ℕ) (last : K) : Option (K × ℕ × K) := do
  let (idx, sum, acc) ← if 0 < last then (src[idx]?).map fun v => (idx + 1, h - last, (h - last) / H * v) else some (idx, 0, 0)
  let (idx, sum, acc) ← interpWhile src H h idx sum acc
  let remainder := H - sum
  if remainder < h then
    let v ← src[idx]?
    some (acc + remainder / H * v, idx, remainder)
  else none

/-- The loop over the destination cells. /repo/src/AMReX/multi_block/MultiBlockBoundary2.cpp:272-292 -/
def interpGreaterFrom (src : List K) (H h : K) : ℕ → ℕ → K → Option (List K)
  | 0, _, _ => some []
  | m + 1, idx, last => do
    let (v, idx, last) ← interpCell src H h idx last
    let rest ← interpGreaterFrom src H h m idx last
    some (v :: rest)

/-- `InterpolateStates_Greater`: from cells of size `h` to `m` larger cells of size `H`. /repo/src/AMReX/multi_block/MultiBlockBoundary2.cpp:266-293 -/
def interpGreater (m : ℕ) (H : K) (src : List K) (h : K) : Option (List K) := interpGreaterFrom src H h m 0 0

variable [FloorSemiring K]

/-- One destination cell of `InterpolateStates_Less`; the conversion to `ptrdiff_t` truncates, `fmod` is the remainder. /repo/src/AMReX/multi_block/MultiBlockBoundary2.cpp:299-313 -/
def interpLessCell (src : List K) (H h : K) (i : ℕ) : Option K :=
  let xLower := H * i
  let xUpper := H * (i + 1 : ℕ)
  let j0 := ⌊xLower / h⌋₊
  let j1 := ⌊xUpper / h⌋₊
  if j0 = j1 then src[j0]?
  else
    let weight1 := xUpper - h * j1
    let weight0 := H - weight1
    if 0 < weight1 ∧ j1 < src.length then do
      let a ← src[j0]?
      let b ← src[j1]?
      some (weight0 / H * a + weight1 / H * b)
    else src[j0]?

/-- `InterpolateStates_Less`: from cells of size `h` to `m` smaller cells of size `H`. /repo/src/AMReX/multi_block/MultiBlockBoundary2.cpp:295-315 -/
def interpLess (m : ℕ) (H : K) (src : List K) (h : K) : Option (List K) := (List.range m).mapM (interpLessCell src H h)

/-- `InterpolateStates` for one component: on side 1 source and destination are reversed. For equal cell sizes the boxes are equal and the data are copied.
/repo/src/AMReX/multi_block/MultiBlockBoundary2.cpp:317-352 -/
def interpolateStates (m : ℕ) (H : K) (src : List K) (h : K) (side : ℕ) : Option (List K) :=
  if h < H then
    if side = 1 then (interpGreater m H src.reverse h).map List.reverse else interpGreater m H src h
  else if H < h then
    if side = 1 then (interpLess m H src.reverse h).map List.reverse else interpLess m H src h
  else some src

/-- The number of source cells that are averaged. /repo/src/AMReX/multi_block/MultiBlockBoundary2.cpp:482-483,504-505 -/
def mirrorWidth (gcw : ℕ) (H h : K) : ℕ := ⌈gcw * H / h⌉₊

end Interpolation

/-! ### Boxes in the direction of a connection -/

/-- `MakeMirrorBox` in the direction of the connection (inclusive ends). /repo/src/AMReX/multi_block/MultiBlockBoundary2.cpp:385-398 -/
def mirrorBox (lo hi : ℤ) (width : ℤ) (side : ℕ) : ℤ × ℤ := if side = 1 then (hi - width + 1, hi) else (lo, lo + width - 1)

/-- `MakeGhostBox` in the direction of the connection (inclusive ends). /repo/src/AMReX/multi_block/MultiBlockBoundary2.cpp:400-412 -/
def ghostBox (lo hi : ℤ) (width : ℤ) (side : ℕ) : ℤ × ℤ := if side = 1 then (hi + 1, hi + width) else (lo - width, lo - 1)

/-- `Flip`. /repo/src/AMReX/multi_block/MultiBlockBoundary2.cpp:414 -/
def flipSide (side : ℕ) : ℕ := (if side = 0 then 1 else 0) * 1 + (if side ≠ 0 then 1 else 0) * 0

/-- The plenum mirror cell whose data are stored in the tube ghost cell `j`; the plenum block is `[plo, phi]`, the tube block `[tlo, thi]`.
/repo/src/AMReX/multi_block/MultiBlockBoundary2.cpp:484-516 and /repo/include/fub/AMReX/multi_block/MultiBlockBoundary2.hpp:256-265 -/
def tubeGhostSource (plo phi tlo thi gcw : ℤ) (side : ℕ) (j : ℤ) : ℤ :=
  let i0 := (mirrorBox plo phi gcw side).1
  let j0 := (ghostBox tlo thi gcw (flipSide side)).1
  i0 + (j - j0)

/-- The tube mirror cell whose data are stored in the plenum ghost cell `j`. /repo/src/AMReX/multi_block/MultiBlockBoundary2.cpp:484-516 and
/repo/include/fub/AMReX/multi_block/MultiBlockBoundary2.hpp:288-296 -/
def plenumGhostSource (plo phi tlo thi gcw : ℤ) (side : ℕ) (j : ℤ) : ℤ :=
  let i0 := (mirrorBox tlo thi gcw (flipSide side)).1
  let j0 := (ghostBox plo phi gcw side).1
  i0 + (j - j0)

/-! ### Averages over a cross section -/

section Average
variable {K : Type} [Field K] [LinearOrder K] {n : ℕ}

/-- The contribution of one process to `ReduceTotalVolume` for the slice with first index `x`. /repo/src/AMReX/multi_block/MultiBlockBoundary2.cpp:64-90 -/
def localVolume (alpha : Index (n + 1) → K) (vol : K) (box : IndexBox (n + 1)) (tiles : List (IndexBox (n + 1))) (x : ℤ) : K :=
  tiles.foldl (fun acc tile => (forEachIndex (box.intersect tile)).foldl (fun acc i => if i 0 = x then acc + alpha i * vol else acc) acc) 0

/-- `ReduceTotalVolume` (`MPI_Allreduce` adds the contributions). /repo/src/AMReX/multi_block/MultiBlockBoundary2.cpp:64-90 -/
def totalVolume (alpha : Index (n + 1) → K) (vol : K) (box : IndexBox (n + 1)) (ranks : List (List (IndexBox (n + 1)))) (x : ℤ) : K :=
  (ranks.map fun tiles => localVolume alpha vol box tiles x).sum

/-- The contribution of one process to `IntegrateConserativeStates`, one component. /repo/src/AMReX/multi_block/MultiBlockBoundary2.cpp:135-153,211-220 -/
def localSlice (total : ℤ → K) (alpha data : Index (n + 1) → K) (vol : K) (box : IndexBox (n + 1)) (tiles : List (IndexBox (n + 1))) (x : ℤ) : K :=
  tiles.foldl (fun acc tile => (forEachIndex (box.intersect tile)).foldl
    (fun acc i => if i 0 = x then (if 0 < alpha i then acc + alpha i * vol / total (i 0) * data i else acc) else acc) acc) 0

/-- `AverageConservativeHierarchyStates` without a normal. /repo/src/AMReX/multi_block/MultiBlockBoundary2.cpp:192-243 -/
def sliceAverage (alpha data : Index (n + 1) → K) (vol : K) (box : IndexBox (n + 1)) (ranks : List (List (IndexBox (n + 1)))) (x : ℤ) : K :=
  (ranks.map fun tiles => localSlice (totalVolume alpha vol box ranks) alpha data vol box tiles x).sum

/-- The box on which the averages are stored (`ReduceDimension`), and the cell to which the cell `i` is added. /repo/src/AMReX/multi_block/MultiBlockBoundary2.cpp:47-58,67,80-82,147 -/
def reducedBox (box : IndexBox (n + 1)) (dir : Fin (n + 1)) : IndexBox (n + 1) :=
  ⟨fun d => if d = dir then box.lower d else 0, fun d => if d = dir then box.upper d else 1⟩

/-- See `reducedBox`. Serves the model of /repo/src/AMReX/multi_block/MultiBlockBoundary2.cpp:47-58,67,80-82,147. -/
def reducedIndex (i : Index (n + 1)) : Index (n + 1) := fun d => if d = 0 then i 0 else 0

/-- `AllgatherMirrorData` for one component and cell `i` of the mirror box: every process adds its tiles to zeros. /repo/src/AMReX/multi_block/MultiBlockBoundary2.cpp:354-368 -/
def gatherMirror (data : Index (n + 1) → K) (box : IndexBox (n + 1)) (ranks : List (List (IndexBox (n + 1)))) (i : Index (n + 1)) : K :=
  (ranks.map fun tiles => tiles.foldl (fun acc tile => if i ∈ forEachIndex (box.intersect tile) then acc + data i else acc) 0).sum

/-- `AverageFlux_`, one component: `area` is the open fraction of a face (one in regular patches, zero in covered ones). /repo/src/AMReX/multi_block/MultiBlockIntegratorContext2.cpp:432-486 -/
def averageFlux (area flux : Index (n + 1) → K) (boundary : IndexBox (n + 1)) (ranks : List (List (IndexBox (n + 1)))) : K :=
  let total := (ranks.map fun tiles => tiles.foldl (fun acc tile => (forEachIndex (tile.intersect boundary)).foldl (fun acc i => acc + area i) acc) 0).sum
  let sum := (ranks.map fun tiles => tiles.foldl (fun acc tile => (forEachIndex (tile.intersect boundary)).foldl (fun acc i => acc + area i * flux i) acc) 0).sum
  if 0 < total then sum / total else 0

/-- `GetBoundary`: the layer of faces of the cell box `box`; the ends of a box are inclusive in AMReX, `upper` is one more. /repo/src/AMReX/multi_block/MultiBlockIntegratorContext2.cpp:420-430 -/
def getBoundary (box : IndexBox (n + 1)) (d : Fin (n + 1)) (side : ℕ) : IndexBox (n + 1) :=
  if side = 0 then ⟨box.lower, Function.update box.upper d (box.lower d + 1)⟩ else ⟨Function.update box.lower d (box.upper d - 1), box.upper⟩

end Average

/-! ### States -/

/-- `ReduceStateDimension`. /repo/include/fub/AMReX/multi_block/MultiBlockBoundary2.hpp:188-207 -/
noncomputable def reduceState {d s t : ℕ} (eq : MixEq) (q : MixCons d s t) : Option (MixComplete 0 s t) :=
  mixComplete eq { density := q.density, momentum := fun _ => q.momentum 0, energy := q.energy, species := q.species, scalars := q.scalars }

/-- `EmbedState`. /repo/include/fub/AMReX/multi_block/MultiBlockBoundary2.hpp:209-228 -/
noncomputable def embedState (d : ℕ) {s t : ℕ} (eq : MixEq) (q : MixCons 0 s t) : Option (MixComplete d s t) :=
  mixComplete eq { density := q.density, momentum := fun i => if i = 0 then q.momentum 0 else 0, energy := q.energy, species := q.species, scalars := q.scalars }

/-- A ghost cell is only overwritten if the mirror state has a positive density. /repo/include/fub/AMReX/multi_block/MultiBlockBoundary2.hpp:266-276,294-297 -/
noncomputable def fillGhost {A B : Type} (conv : A → Option B) (density : A → ℝ) (old : B) (q : A) : Option B := if 0 < density q then conv q else some old

/-! ### Connections -/

/-- `BlockConnection`, the numbers of the connected blocks. /repo/include/fub/AMReX/multi_block/MultiBlockBoundary.hpp:49-62 -/
structure BlockConn where
  tube : ℕ
  plenum : ℕ
deriving DecidableEq

/-- The boundary conditions that a block gets behind its original one, named by the number of their connection: for every level those of the connections of the block.
/repo/include/fub/AMReX/multi_block/MultiBlockGriddingAlgorithm2.hpp:100-125 -/
def blockConditions (conns : List BlockConn) (sel : BlockConn → ℕ) (id nlevel : ℕ) : List ℕ :=
  (List.range nlevel).flatMap fun _ => (conns.zipIdx.filter fun c => decide (sel c.1 = id)).map Prod.snd

/-- One iteration of the loops in `ComputeMultiBlockBoundaryData`: pairs of an updated boundary condition (named by its connection) and the connection whose blocks give the data. A block without connections is a division by zero.
/repo/src/AMReX/multi_block/MultiBlockIntegratorContext2.cpp:632-656,657-682 -/
def blockUpdates (conns : List BlockConn) (sel : BlockConn → ℕ) (id nlevel level : ℕ) : Option (List (ℕ × ℕ)) :=
  let conditions := blockConditions conns sel id nlevel
  let nConnections := (conns.filter fun c => decide (sel c = id)).length
  if nConnections = 0 then none
  else if level < conditions.length / nConnections then
    let conditions := (conditions.drop (level * nConnections)).take nConnections
    some ((((conns.zipIdx).zip conditions).filter fun p => decide (sel p.1.1 = id)).map fun p => (p.2, p.1.2))
  else none

/-- The members of the context that a copy has to keep. /repo/include/fub/AMReX/multi_block/MultiBlockIntegratorContext2.hpp:203-212 -/
structure BlockContext (T P F C : Type) where
  tubes : List T
  plena : List P
  feedback : Option F
  ebReference : Option C

/-- The copy constructor; the copied gridding algorithm has as many blocks as the original. /repo/src/AMReX/multi_block/MultiBlockIntegratorContext2.cpp:34-53 -/
def copyBlockContext {T P F C : Type} (other : BlockContext T P F C) : BlockContext T P F C :=
  { tubes := other.tubes.take (min other.tubes.length other.tubes.length)
    plena := other.plena.take (min other.tubes.length other.plena.length)
    feedback := other.feedback
    ebReference := none }

end Fub
