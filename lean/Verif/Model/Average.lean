import Verif.Model.IndexBox
import Mathlib.Algebra.Field.Basic

/-!
Averages over a box of cells. Source: `/repo/include/fub/AMReX/AverageState.hpp`.

Simplifications: exact numbers; `MPI_Allreduce` adds the contributions of all processes.
-/

namespace Fub
variable {K : Type} {n : Nat}

/-- The number of cells of a box (AMReX `numPts`). Serves the model of /repo/include/fub/AMReX/AverageState.hpp:61-73,86-98. -/
def boxNumPts (b : IndexBox n) : Nat := (forEachIndex b).length

/-- The sum that one process computes for one component; `tiles` are the tiles of its patches. /repo/include/fub/AMReX/AverageState.hpp:61-73,86-98 -/
def localAverage [Field K] (data : Index n → K) (box : IndexBox n) (tiles : List (IndexBox n)) : K :=
  tiles.foldl (fun acc tile => (forEachIndex (box.intersect tile)).foldl (fun acc i => acc + data i / (boxNumPts box : K)) acc) 0

/-- `AverageState` for one component. /repo/include/fub/AMReX/AverageState.hpp:56-104 -/
def averageState [Field K] (data : Index n → K) (box : IndexBox n) (ranks : List (List (IndexBox n))) : K :=
  (ranks.map (localAverage data box)).sum

/-- `AccumulateState` on one process: `op` is applied to the accumulator and the components of every cell. /repo/include/fub/AMReX/AverageState.hpp:35-54 -/
def accumulateState {A X : Type} (op : A → X → A) (data : Index n → X) (box : IndexBox n) (tiles : List (IndexBox n)) (init : A) : A :=
  tiles.foldl (fun acc tile => (forEachIndex (box.intersect tile)).foldl (fun acc i => op acc (data i)) acc) init

end Fub
