import Verif.Model.MultiBlockRun

/-!
The first version of the integrator context of coupled blocks, `/repo/src/AMReX/multi_block/MultiBlockIntegratorContext.cpp`: preparation of the blocks and copies for the repetition of failed steps, next to the second version.

The hierarchies of the blocks live in a heap; contexts and gridding algorithms refer to them by number (`std::shared_ptr`). A hierarchy is a value of an arbitrary type; a step changes the hierarchies of the blocks of the context by an arbitrary function.
-/

namespace Fub

/-- `MultiBlockIntegratorContext::PreAdvanceHierarchy()`: only the plena. /repo/src/AMReX/multi_block/MultiBlockIntegratorContext.cpp:455-459 -/
def firstPreHierarchy {K G Opt Meth Cb : Type} (b : List (Ctx K G Opt Meth Cb) × List (Ctx K G Opt Meth Cb)) : List (Ctx K G Opt Meth Cb) × List (Ctx K G Opt Meth Cb) :=
  (b.1, b.2.map Ctx.preAdvanceHierarchy)

/-- `MultiBlockIntegratorContext2::PreAdvanceHierarchy()`: tubes and plena. /repo/src/AMReX/multi_block/MultiBlockIntegratorContext2.cpp:400-408 -/
def secondPreHierarchy {K G Opt Meth Cb : Type} (b : List (Ctx K G Opt Meth Cb) × List (Ctx K G Opt Meth Cb)) : List (Ctx K G Opt Meth Cb) × List (Ctx K G Opt Meth Cb) :=
  (b.1.map Ctx.preAdvanceHierarchy, b.2.map Ctx.preAdvanceHierarchy)

/-- `MultiBlockIntegratorContext::PostAdvanceHierarchy()`: only the plena. /repo/src/AMReX/multi_block/MultiBlockIntegratorContext.cpp:461-465 -/
def firstPostHierarchy {K G Opt Meth Cb : Type} (b : List (Ctx K G Opt Meth Cb) × List (Ctx K G Opt Meth Cb)) : List (Ctx K G Opt Meth Cb) × List (Ctx K G Opt Meth Cb) :=
  (b.1, b.2.map Ctx.postAdvanceHierarchy)

/-- A coupled context: `blocks` are the hierarchies of the contexts of the blocks (`tubes_`, then `plena_`), `grid` those of `gridding_`, which the output and the run loop read. /repo/include/fub/AMReX/multi_block/MultiBlockIntegratorContext.hpp:180-182, /repo/include/fub/AMReX/multi_block/MultiBlockIntegratorContext2.hpp:204-206 -/
structure PairedRefs where
  blocks : List ℕ
  grid : List ℕ

/-- The program: the heap, the first free number, the solver and its backup. /repo/include/fub/RunSimulation.hpp:100-108 -/
structure PairedRun (S : Type) where
  heap : ℕ → S
  next : ℕ
  solver : PairedRefs
  backup : Option PairedRefs

variable {S : Type}

/-- Copies of the hierarchies of a context at new places, in the same order. /repo/src/AMReX/IntegratorContext.cpp:174-178, /repo/src/AMReX/cutcell/IntegratorContext.cpp:225-228 -/
def copyHeap (heap : ℕ → S) (next : ℕ) (refs : List ℕ) : ℕ → S :=
  fun k => if next ≤ k then (match refs[k - next]? with | some r => heap r | none => heap k) else heap k

/-- The context after the copy. The copy constructor of the first version is the default one: the blocks copy their hierarchies, `gridding_` is shared. The second version copies the gridding algorithm and makes the blocks from it. /repo/include/fub/AMReX/multi_block/MultiBlockIntegratorContext.hpp:35-46, /repo/src/AMReX/multi_block/MultiBlockIntegratorContext2.cpp:34-53 -/
def copyRefs (second : Bool) (next : ℕ) (c : PairedRefs) : PairedRefs :=
  let new := List.range' next c.blocks.length
  { blocks := new, grid := if second then new else c.grid }

/-- The constructor: the gridding algorithm is made from those of the contexts. /repo/src/AMReX/multi_block/MultiBlockIntegratorContext.cpp:27-45, /repo/include/fub/AMReX/multi_block/MultiBlockIntegratorContext2.hpp:216-234 -/
def pairedMake (states : List S) (default : S) : PairedRun S :=
  { heap := fun k => states.getD k default, next := states.length, solver := ⟨List.range states.length, List.range states.length⟩, backup := none }

/-- What the run loop does with a context. /repo/include/fub/RunSimulation.hpp:100-190 -/
inductive PairedOp (S : Type) where
  /-- `backup = solver` -/
  | backup
  /-- `solver = *backup` -/
  | restore
  /-- a step: the new states of the blocks of the solver, depending on everything -/
  | step (f : (ℕ → S) → ℕ → S)

/-- The effect of an operation; restoring without a backup does not happen. /repo/include/fub/RunSimulation.hpp:103-108, 134-150, 168-186 -/
def pairedOp (second : Bool) (r : PairedRun S) : PairedOp S → PairedRun S
  | .backup =>
    -- copies of the hierarchies; in the second version those of the gridding algorithm, which are the same objects
    { r with heap := copyHeap r.heap r.next (if second then r.solver.grid else r.solver.blocks), next := r.next + r.solver.blocks.length, backup := some (copyRefs second r.next r.solver) }
  | .restore =>
    match r.backup with
    | none => r
    | some b => { r with heap := copyHeap r.heap r.next (if second then b.grid else b.blocks), next := r.next + b.blocks.length, solver := copyRefs second r.next b }
  | .step f => { r with heap := fun k => if k ∈ r.solver.blocks then f r.heap k else r.heap k }

/-- What the output writes: the hierarchies of `solver.GetGriddingAlgorithm()`. /repo/include/fub/RunSimulation.hpp:112, 190-200 -/
def pairedOutput (r : PairedRun S) : List S := r.solver.grid.map r.heap

/-- What is computed: the hierarchies of the blocks. /repo/src/AMReX/multi_block/MultiBlockIntegratorContext.cpp:86-100 -/
def pairedComputed (r : PairedRun S) : List S := r.solver.blocks.map r.heap

/-- A history of operations, in order. /repo/include/fub/RunSimulation.hpp:100-190 -/
def pairedRun (second : Bool) (r : PairedRun S) (ops : List (PairedOp S)) : PairedRun S := ops.foldl (pairedOp second) r

end Fub
