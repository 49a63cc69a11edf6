import Mathlib.Data.List.Basic

/-!
# Levels made from the initial condition

Model of `GriddingAlgorithm::MakeNewLevelFromScratch`, /repo/src/AMReX/GriddingAlgorithm.cpp:187-206, which AMReX calls while it looks
for the initial grids.
-/

namespace Fub

/-- A `PatchLevel`: its number, time, cycles, boxes with their owners, and data. /repo/include/fub/AMReX/PatchHierarchy.hpp -/
structure ScratchLevel (Tm L D : Type) where
  number : Nat
  time : Tm
  cycles : Nat
  layout : L
  data : Option D
deriving DecidableEq

variable {Tm L D : Type}

/-- A new `PatchLevel` has no data yet. /repo/src/AMReX/GriddingAlgorithm.cpp:195-200 -/
def emptyLevel (number : Nat) (t : Tm) (ly : L) : ScratchLevel Tm L D :=
  { number := number, time := t, cycles := 0, layout := ly, data := none }

/-- `MakeNewLevelFromScratch(level, time_point, box_array, distribution_mapping)`; `init` is the initial condition, which may depend on
the number of the level. `none` is the access outside of the vector of levels. /repo/src/AMReX/GriddingAlgorithm.cpp:187-206 -/
def makeFromScratch (init : Nat → Tm → L → D) (hier : List (ScratchLevel Tm L D)) (level : Nat) (t : Tm) (ly : L) :
    Option (List (ScratchLevel Tm L D)) :=
  let hier1 :=
    if hier.length = level then some (hier ++ [emptyLevel level t ly])
    else if level < hier.length then some (hier.set level (emptyLevel level t ly))
    else none
  hier1.map fun h => h.modify level fun p => { p with data := some (init level t p.layout) }

/-- A sequence of calls `(level, time, layout)`. -/
def scratchRun (init : Nat → Tm → L → D) : List (ScratchLevel Tm L D) → List (Nat × Tm × L) → Option (List (ScratchLevel Tm L D))
  | h, [] => some h
  | h, (l, t, ly) :: calls => (makeFromScratch init h l t ly).bind fun h' => scratchRun init h' calls

end Fub
