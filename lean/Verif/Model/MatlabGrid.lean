import Verif.Model.GridOutput

/-!
The Matlab files of a cut-cell domain, `WriteMatlabData` of `/repo/src/AMReX/cutcell/PatchHierarchy.cpp:799-890`: a header and a binary file with the levels composed on the finest grid.

As in `Model/GridOutput.lean` values are elements of an ordered field, `MPI_Reduce` is a sum over the ranks. The numbers of the header are kept as numbers, `fmt` is not modelled.
-/

namespace Fub

section
variable {n : ℕ} {K : Type} [Field K] [LinearOrder K]

/-- A level with the domain of its `Geometry`. /repo/src/AMReX/cutcell/PatchHierarchy.cpp:806-810 -/
structure MatLevel (n : ℕ) (K : Type) where
  /-- `level_geom.Domain()` -/
  dom : ABox n
  lev : OutLevel n K

/-- The cells the loops over `i` and `j` visit: the third coordinate, if there is one, is `domain.smallEnd(2)`. /repo/src/AMReX/cutcell/PatchHierarchy.cpp:828-830, 839-841 -/
def matVisited (dom : ABox n) (i : Index n) : Prop := dom.Has i ∧ ∀ d : Fin n, 2 ≤ d.val → i d = dom.lo d

instance instDecidableMatVisited (dom : ABox n) (i : Index n) : Decidable (matVisited dom i) := by unfold matVisited; infer_instance

/-- The loop over the cells for one component. /repo/src/AMReX/cutcell/PatchHierarchy.cpp:828-837 for `comp > 0`, lines 839-848 for `comp = 0` -/
def matFillComp (dom : ABox n) (r : Index n) (coarse fab : ℕ → Index n → K) (comp : ℕ) : ℕ → Index n → K :=
  fun c i => if c = comp ∧ matVisited dom i ∧ fab 0 i = 0 then coarse c (coarsenIdx r i) else fab c i

/-- One level: gather on rank zero and fill, component zero last. /repo/src/AMReX/cutcell/PatchHierarchy.cpp:806-849 -/
def matStep (ranks ncomp : ℕ) (coarse : Option (ℕ → Index n → K)) (l : MatLevel n K) : ℕ → Index n → K :=
  let fab : ℕ → Index n → K := fun c i => reduceSum ranks fun rank => localFab l.lev.patches rank (fun _ _ => 0) c i
  match coarse with
  | none => fab
  | some g => matFillComp l.dom l.lev.ratio g ((List.range' 1 (ncomp - 1)).foldl (matFillComp l.dom l.lev.ratio g) fab) 0

/-- The fab that is written; the levels are listed from the coarsest to the finest. /repo/src/AMReX/cutcell/PatchHierarchy.cpp:799-850 -/
def matLevels (ranks ncomp : ℕ) (ls : List (MatLevel n K)) : Option (ℕ → Index n → K) :=
  ls.foldl (fun g l => some (matStep ranks ncomp g l)) none

/-- What the two files contain. /repo/src/AMReX/cutcell/PatchHierarchy.cpp:854-882 -/
structure MatFile (K : Type) where
  /-- `size`: the lengths of the domain and the number of components -/
  size : List ℕ
  dx : List K
  x0 : List K
  t : K
  cycle : ℤ
  /-- the numbers of the binary file, `fab.dataPtr()` -/
  bin : List K

/-- `Geometry::CellCenter(i, d)`. Used at /repo/src/AMReX/cutcell/PatchHierarchy.cpp:862-863. -/
def matCenter (l : OutLevel n K) (d : Fin n) (i : ℤ) : K := l.lo d + ((i : K) + 1 / 2) * l.dx d

/-- `domain.length(d)`. Used at /repo/src/AMReX/cutcell/PatchHierarchy.cpp:858-859. -/
def ABox.len (b : ABox n) (d : Fin n) : ℕ := (b.hi d + 1 - b.lo d).toNat

/-- The files of the finest level. The data of an `FArrayBox` lies component after component, the first coordinate is the fastest. /repo/src/AMReX/cutcell/PatchHierarchy.cpp:854-882 -/
def matFile (l : MatLevel n K) (ncomp : ℕ) (fab : ℕ → Index n → K) (t : K) (cycle : ℤ) : MatFile K :=
  { size := (List.finRange n).map l.dom.len ++ [ncomp]
    dx := (List.finRange n).map l.lev.dx
    x0 := (List.finRange n).map fun d => matCenter l.lev d (l.dom.lo d)
    t := t
    cycle := cycle
    bin := (List.range ncomp).flatMap fun c => (forEachIndex l.dom.toIndexBox).map (fab c) }

/-- `WriteMatlabData`: the files written for a hierarchy; nothing without levels. /repo/src/AMReX/cutcell/PatchHierarchy.cpp:799-890 -/
def writeMatlabGrid (ranks ncomp : ℕ) (ls : List (MatLevel n K)) (t : K) (cycle : ℤ) : Option (MatFile K) :=
  match matLevels ranks ncomp ls, ls.getLast? with
  | some fab, some l => some (matFile l ncomp fab t cycle)
  | _, _ => none

/-- The name of the data file in the header is that of the binary file in the same directory. `name.bin` is written, the header has `path.filename() + ".bin"`. Characters before the last `/` are the directory. /repo/src/AMReX/cutcell/PatchHierarchy.cpp:851-855, 876-879 -/
def matDataFile (name : List Char) : List Char := (name.reverse.takeWhile (· ≠ '/')).reverse ++ ['.', 'b', 'i', 'n']

/-- The name of the binary file. /repo/src/AMReX/cutcell/PatchHierarchy.cpp:879 -/
def matBinFile (name : List Char) : List Char := name ++ ['.', 'b', 'i', 'n']

end

end Fub
