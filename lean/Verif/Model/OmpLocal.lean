import Mathlib.Algebra.BigOperators.Group.List.Basic
import Mathlib.Algebra.Order.Field.Basic
import Mathlib.Algebra.BigOperators.Group.Finset.Basic

/-!
# Values per thread

Model of `OmpLocal`, `/repo/include/fub/ext/omp.hpp`, of the parallel loops that use it
(`/repo/include/fub/AMReX/ForEachFab.hpp`) and of `GetInnerBox` and `GetMeanValueInBox`,
`/repo/src/AMReX/MultiFabUtilities.cpp`.
-/

namespace Fub

/-- `OmpLocal(value)`, `/repo/include/fub/ext/omp.hpp:66-69`: one copy of the value for each of the `omp_get_max_threads()`
threads; without OpenMP one copy (`/repo/include/fub/ext/omp.hpp:90-92`, `threads = 1`). -/
def ompLocal {T : Type*} (threads : ℕ) (value : T) : List T := List.replicate threads value

/-- One body of a parallel loop: the thread that executes it changes its own instance (`Get`,
`/repo/include/fub/ext/omp.hpp:71-86`). A thread number that is not below the number of instances is undefined behaviour:
`none`. -/
def ompStep {T E : Type*} (f : T → E → T) (inst : List T) (ev : ℕ × E) : Option (List T) :=
  match inst[ev.1]? with
  | none => none
  | some t => some (inst.set ev.1 (f t ev.2))

/-- A schedule: the order in which the bodies take place and the threads that execute them. Bodies of
different threads touch different instances, so every interleaving is one such list. Serves the model of /repo/src/AMReX/MultiFabUtilities.cpp:78-85. -/
def ompRun {T E : Type*} (f : T → E → T) : List T → List (ℕ × E) → Option (List T)
  | inst, [] => some inst
  | inst, ev :: evs =>
    match ompStep f inst ev with
    | none => none
    | some inst' => ompRun f inst' evs

/-- `Accumulate(op)`, `/repo/include/fub/ext/omp.hpp:131-137`: `none` for an empty list, which the assertion excludes. -/
def ompAccumulate {T : Type*} (op : T → T → T) : List T → Option T
  | [] => none
  | a :: rest => some (rest.foldl op a)

/-- `Min()`, `/repo/include/fub/ext/omp.hpp:125-128`: `std::min_element`, the first smallest element. -/
def ompMin {T : Type*} [LinearOrder T] : List T → Option T
  | [] => none
  | a :: rest => some (rest.foldl (fun m x => if x < m then x else m) a)

/-! ## The mean value in a box -/

/-- `GetInnerBox(box, side, dir, width)`, `/repo/src/AMReX/MultiFabUtilities.cpp:59-74`: the `width` layers of cells at the lower
(`side = 0`) or upper side. -/
def getInnerBox {d : ℕ} (lower upper : Fin d → ℤ) (side : ℤ) (dir : Fin d) (width : ℤ) :
    (Fin d → ℤ) × (Fin d → ℤ) :=
  if side = 0 then
    (lower, fun i => if i = dir then lower dir + width - 1 else upper i)
  else
    (fun i => if i = dir then upper dir - width + 1 else lower i, upper)

/-- A patch of a `MultiFab` as `GetMeanValueInBox` sees it: the cells of its array, ghost cells
included (`fab.box()`, `/repo/src/AMReX/MultiFabUtilities.cpp:82`), its values, and the number of tiles the iterator visits it with. -/
structure MeanFab (I K : Type*) where
  cells : Finset I
  value : I → K
  tiles : ℕ

variable {I K : Type*} [DecidableEq I] [Field K]

/-- What one body adds, `/repo/src/AMReX/MultiFabUtilities.cpp:81-83`: the sum over the whole array of the patch, whatever the tile. -/
def meanPart (box : Finset I) (fab : MeanFab I K) : K :=
  (∑ c ∈ box ∩ fab.cells, fab.value c) / (box.card : K)

/-- The bodies of the loop `ForEachFab(execution::openmp, data, …)`: one for each tile of each patch,
`/repo/include/fub/AMReX/ForEachFab.hpp:48-57`. -/
def meanBodies (fabs : List (MeanFab I K)) : List (MeanFab I K) :=
  fabs.flatMap (fun f => List.replicate f.tiles f)

/-- The local part of `GetMeanValueInBox`, `/repo/src/AMReX/MultiFabUtilities.cpp:78-85`, for a schedule of the bodies. -/
def meanLocal (threads : ℕ) (box : Finset I) (schedule : List (ℕ × MeanFab I K)) : Option K :=
  (ompRun (fun acc f => acc + meanPart box f) (ompLocal threads 0) schedule).bind
    (ompAccumulate (· + ·))

/-- `GetMeanValueInBox`, `/repo/src/AMReX/MultiFabUtilities.cpp:76-90`: the sum of the local parts of all ranks. -/
def meanValueInBox (box : Finset I) (ranks : List (ℕ × List (ℕ × MeanFab I K))) : Option K :=
  (ranks.mapM (fun r => meanLocal r.1 box r.2)).map List.sum

end Fub
