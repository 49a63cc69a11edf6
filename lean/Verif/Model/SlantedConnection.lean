import Verif.Model.MultiBlock
import Verif.Model.CutCell

/-!
Connections between a tube and a plenum through a slanted wall: the average of the plenum along the wall and the ghost cells of the tube.
/repo/src/AMReX/multi_block/MultiBlockBoundary2.cpp:92-190, 192-245, 474-620, /repo/include/fub/AMReX/multi_block/MultiBlockBoundary2.hpp:244-281.
Exact arithmetic; one component of the data at a time; every process owns a list of tiles, `MPI_Allreduce` adds their contributions.
-/

namespace Fub

section
variable {K : Type} [Field K] [LinearOrder K] {n : ℕ}

/-- The test whether the wall in a cell belongs to the connection: the stored normal is parallel to the given one up to the tolerance.
/repo/src/AMReX/multi_block/MultiBlockBoundary2.cpp:119-122, 168-173 -/
def wallMatches (nrm : Index n → Fin n → K) (normal : Fin n → K) (tol : K) (i : Index n) : Bool :=
  let projection := |∑ d, nrm i d * normal d|
  let error := |projection - 1|
  decide (error < tol)

/-- The contribution of one process to `ReduceTotalVolume` with a normal. `single` is the test of the type of a tile for cut cells.
/repo/src/AMReX/multi_block/MultiBlockBoundary2.cpp:92-128 -/
def slantedLocalVolume (nrm : Index n → Fin n → K) (normal : Fin n → K) (tol vol : K) (single : IndexBox n → Bool) (box : IndexBox n) (tiles : List (IndexBox n)) : K :=
  tiles.foldl (fun acc tile =>
    if single tile then (forEachIndex (box.intersect tile)).foldl (fun acc i => if wallMatches nrm normal tol i then acc + vol else acc) acc
    else acc) 0

/-- `ReduceTotalVolume` with a normal. /repo/src/AMReX/multi_block/MultiBlockBoundary2.cpp:92-133 -/
def slantedVolume (nrm : Index n → Fin n → K) (normal : Fin n → K) (tol vol : K) (single : IndexBox n → Bool) (box : IndexBox n) (ranks : List (List (IndexBox n))) : K :=
  (ranks.map fun tiles => slantedLocalVolume nrm normal tol vol single box tiles).sum

/-- The loop that is to move to the neighbour in front of the wall. The result of `Shift` is not used, so the index is not changed.
/repo/src/AMReX/multi_block/MultiBlockBoundary2.cpp:176-181 -/
def slantedNeighbor (nrm : Index n → Fin n → K) (i : Index n) : Index n :=
  (List.finRange n).foldl (fun neighbor d =>
    let sign : ℤ := (if 0 < nrm i d then 1 else 0) - (if nrm i d < 0 then 1 else 0)
    let _ := shift neighbor d (-sign)
    neighbor) i

/-- The contribution of one process to `IntegrateConserativeStates` with a normal; `single` is the test of the type of the patch of the tile.
/repo/src/AMReX/multi_block/MultiBlockBoundary2.cpp:155-190, 221-236 -/
def slantedLocal (total : K) (nrm : Index n → Fin n → K) (normal : Fin n → K) (tol vol : K) (single : IndexBox n → Bool) (alpha data : Index n → K) (box : IndexBox n)
    (tiles : List (IndexBox n)) : K :=
  tiles.foldl (fun acc tile =>
    if single tile then
      (forEachIndex (box.intersect tile)).foldl (fun acc i =>
        if 0 < alpha i ∧ wallMatches nrm normal tol i then
          let mixed := alpha i * data i + (1 - alpha i) * data (slantedNeighbor nrm i)
          acc + vol / total * mixed
        else acc) acc
    else acc) 0

/-- `AverageConservativeHierarchyStates` with a normal. /repo/src/AMReX/multi_block/MultiBlockBoundary2.cpp:192-245 -/
def slantedAverage (nrm : Index n → Fin n → K) (normal : Fin n → K) (tol vol : K) (singleTile singlePatch : IndexBox n → Bool) (alpha data : Index n → K) (box : IndexBox n)
    (ranks : List (List (IndexBox n))) : K :=
  (ranks.map fun tiles => slantedLocal (slantedVolume nrm normal tol vol singleTile box ranks) nrm normal tol vol singlePatch alpha data box tiles).sum

end

/-- `Rotate` of conservative variables. /repo/src/equations/PerfectGasMix.cpp:215-228, 247-260 -/
def mixRotateCons {d s t : ℕ} (R : Fin (d + 1) → Fin (d + 1) → ℝ) (q : MixCons d s t) : MixCons d s t := { q with momentum := rotateVec R q.momentum }

/-- `FillTubeGhostLayer` for a slanted connection: the new content of the ghost cells from the old one; every cell is filled from the same average.
`rot` is `MakeRotation`; `none` if a state cannot be completed. /repo/include/fub/AMReX/multi_block/MultiBlockBoundary2.hpp:244-281 -/
noncomputable def slantedGhosts {d s t : ℕ} (rot : (Fin (d + 1) → ℝ) → (Fin (d + 1) → ℝ) → Fin (d + 1) → Fin (d + 1) → ℝ) (eq : MixEq) (normal : Fin (d + 1) → ℝ) (avg : MixCons d s t)
    (old : List (MixComplete 0 s t)) : Option (List (MixComplete 0 s t)) :=
  old.mapM fun o => fillGhost (fun q => reduceState eq (mixRotateCons (rot normal (unitX (d + 1))) q)) MixCons.density o avg

end Fub
