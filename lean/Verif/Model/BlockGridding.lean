import Mathlib.Data.List.Basic

/-!
# The gridding algorithm of coupled tubes and plena

Model of /repo/src/AMReX/multi_block/MultiBlockGriddingAlgorithm.cpp:25-113. Shared pointers are addresses of a heap, so that it can be
seen which objects are shared. Simplification: of a boundary only its connection, its number in the name, its level, its width and
its valve are kept; the arrays it owns are copied deeply (/repo/src/AMReX/multi_block/MultiBlockBoundary.cpp:317-338).
-/

namespace Fub

/-- The objects behind the shared pointers: tubes, plena and valves. -/
structure BlockHeap (T P V : Type) where
  tubes : List T
  plena : List P
  valves : List V

/-- `MultiBlockBoundary`, /repo/include/fub/AMReX/multi_block/MultiBlockBoundary.hpp:143-165 -/
structure BlockBdry (C : Type) where
  conn : C
  number : Nat
  level : Nat
  gcw : Nat
  valve : Option Nat
deriving DecidableEq

/-- `MultiBlockGriddingAlgorithm`, /repo/include/fub/AMReX/multi_block/MultiBlockGriddingAlgorithm.hpp:80-85 -/
structure BlockGrid (C : Type) where
  tubes : List Nat
  plena : List Nat
  conns : List C
  boundaries : List (List (BlockBdry C))
deriving DecidableEq

variable {T P V C : Type}

/-- The inner loop over the connections; `k` is the counter.
/repo/src/AMReX/multi_block/MultiBlockGriddingAlgorithm.cpp:37-41, 61-66 -/
def blockBdryRow (gcw : C → Nat) (valves : Option (List Nat)) (level : Nat) : List C → Nat → List (BlockBdry C)
  | [], _ => []
  | c :: cs, k =>
    { conn := c, number := k, level := level, gcw := gcw c, valve := valves.bind fun vs => vs[k]? } ::
      blockBdryRow gcw valves level cs (k + 1)

/-- The outer loop over the levels; `level` is the counter. The assertion about the number of valves is inside of the loop.
/repo/src/AMReX/multi_block/MultiBlockGriddingAlgorithm.cpp:34-43, 57-68 -/
def blockBdryLevels (gcw : C → Nat) (valves : Option (List Nat)) (conns : List C) : Nat → Nat → Option (List (List (BlockBdry C)))
  | 0, _ => some []
  | m + 1, level =>
    if (valves.map List.length).getD conns.length = conns.length then
      (blockBdryLevels gcw valves conns m (level + 1)).map (blockBdryRow gcw valves level conns 0 :: ·)
    else none

/-- Both constructors, without valves (`none`) and with valves. `plena_[0]` must exist.
/repo/src/AMReX/multi_block/MultiBlockGriddingAlgorithm.cpp:25-69 -/
def blockConstruct (maxLevels : P → Nat) (gcw : C → Nat) (h : BlockHeap T P V) (tubes plena : List Nat) (conns : List C)
    (valves : Option (List Nat)) : Option (BlockGrid C) := do
  let first ← plena[0]?
  let p ← h.plena[first]?
  let bs ← blockBdryLevels gcw valves conns (maxLevels p) 0
  some { tubes := tubes, plena := plena, conns := conns, boundaries := bs }

/-- The loop that makes a new object from each old one: `std::make_shared<GriddingAlgorithm>(*other.tubes_[i])`.
/repo/src/AMReX/multi_block/MultiBlockGriddingAlgorithm.cpp:76-81 -/
def cloneAll {A : Type} : List Nat → List A → Option (List Nat × List A)
  | [], store => some ([], store)
  | a :: as, store => do
    let x ← store[a]?
    let r ← cloneAll as (store ++ [x])
    some (store.length :: r.1, r.2)

/-- The copy constructor, /repo/src/AMReX/multi_block/MultiBlockGriddingAlgorithm.cpp:71-82; a copied boundary keeps the pointer to its valve,
/repo/src/AMReX/multi_block/MultiBlockBoundary.cpp:317-318 -/
def blockCopy (h : BlockHeap T P V) (g : BlockGrid C) : Option (BlockHeap T P V × BlockGrid C) := do
  let t ← cloneAll g.tubes h.tubes
  let p ← cloneAll g.plena h.plena
  some ({ h with tubes := t.2, plena := p.2 }, { g with tubes := t.1, plena := p.1 })

/-- `RegridAllFinerLevels(level)`: every tube and then every plenum is regridded.
/repo/src/AMReX/multi_block/MultiBlockGriddingAlgorithm.cpp:106-113 -/
def blockRegrid (ft : T → T) (fp : P → P) (h : BlockHeap T P V) (g : BlockGrid C) : BlockHeap T P V :=
  { h with
    tubes := g.tubes.foldl (fun s a => s.modify a ft) h.tubes
    plena := g.plena.foldl (fun s a => s.modify a fp) h.plena }

end Fub
