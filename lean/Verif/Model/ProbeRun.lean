import Verif.Model.Hdf5File

/-!
The probe output of a coupled domain and of a cut-cell domain. Sources: `/repo/src/AMReX/cutcell/output/LogProbes.cpp`, `/repo/src/AMReX/cutcell/output/PerfectGasProbesOutput.cpp`.

A probe file is the list of its rows (data, time and cycle of one output); the layout of a row is the subject of C113. Undefined behaviour (division by zero, access outside of an array) is `none`. Simplification: only rank 0 is modelled, the other ranks write nothing.
-/

namespace Fub

section Coordinates
variable {K : Type}

/-- The array of the coordinates of the plenum: `xs[k][d]` is stored at `d * xs.size() + k`. /repo/src/AMReX/cutcell/output/LogProbes.cpp:229-237 -/
def plenumFlat (xs : List (ℕ → K)) (a : ℕ) : Option K :=
  if a < 3 * xs.length then xs[a % xs.length]?.map fun x => x (a / xs.length) else none

/-- Coordinate `d` of probe `k` that `GatherStates` sees for plenum `i`: the array is divided into one block for each plenum. /repo/src/AMReX/cutcell/output/LogProbes.cpp:294-302 -/
def plenumProbe (xs : List (ℕ → K)) (nPlena i k d : ℕ) : Option K :=
  let n := 3 * xs.length / nPlena / 3
  if k < n ∧ d < 3 then plenumFlat xs (i * (3 * n) + (d * n + k)) else none

/-- The array of the coordinates of the tubes after the constructor: block `tube` holds the first `n` coordinates, what is behind the last block is zero. /repo/src/AMReX/cutcell/output/LogProbes.cpp:244-257 -/
def tubeFlat [Zero K] (xs : List (ℕ → K)) (nTubes : ℕ) (a : ℕ) : Option K :=
  let n := xs.length / nTubes
  if a < nTubes * (3 * n) then xs[a % (3 * n) % n]?.map fun x => x (a % (3 * n) / n)
  else if a < 3 * xs.length then some 0 else none

/-- Coordinate `d` of probe `k` that `GatherStates` sees for tube `i`. /repo/src/AMReX/cutcell/output/LogProbes.cpp:262-272 -/
def tubeProbeSeen [Zero K] (xs : List (ℕ → K)) (nTubes i k d : ℕ) : Option K :=
  let n := 3 * xs.length / nTubes / 3
  if k < n ∧ d < 3 then tubeFlat xs nTubes (i * (3 * n) + (d * n + k)) else none

end Coordinates

section Run
variable {R : Type}

/-- A new file is created with the first row, a regular file gets another row, anything else is left alone. /repo/src/AMReX/cutcell/output/LogProbes.cpp:279-289, /repo/src/AMReX/cutcell/output/PerfectGasProbesOutput.cpp:224-234 -/
def writeProbes (fs : Fs (List R)) (name : String) (row : R) : Fs (List R) :=
  match fs name with
  | none => fun q => if q = name then some (.file [row]) else fs q
  | some (.file rows) => fun q => if q = name then some (.file (rows ++ [row])) else fs q
  | some .other => fs

/-- The loop over blocks; a block without data is skipped. /repo/src/AMReX/cutcell/output/LogProbes.cpp:270-292, 300-321 -/
def writeBlocks (name : ℕ → String) : ℕ → List (Option R) → Fs (List R) → Fs (List R)
  | _, [], fs => fs
  | i, r :: rest, fs => writeBlocks name (i + 1) rest (match r with
      | some row => writeProbes fs (name i) row
      | none => fs)

/-- `LogProbesOutput::operator()`: `tubes` and `plena` are the rows of the blocks (`none`: an empty buffer). The number of probes of a block is computed by a division by the number of tubes of the options and by the number of plena of the grid. /repo/src/AMReX/cutcell/output/LogProbes.cpp:261-322 -/
def logProbes (nTubes : ℕ) (tubePath plenumPath : String) (tubes plena : List (Option R)) (fs : Fs (List R)) : Option (Fs (List R)) :=
  if nTubes = 0 then none
  else
    let fs := writeBlocks (tubeFile tubePath) 0 tubes fs
    if plena.length = 0 then none
    else some (writeBlocks (fun _ => plenumPath) 0 plena fs)

/-- A run: the outputs one after the other. Serves the model of /repo/src/AMReX/cutcell/output/LogProbes.cpp:261-322. -/
def logProbesRun (nTubes : ℕ) (tubePath plenumPath : String) (outs : List (List (Option R) × List (Option R))) (fs : Fs (List R)) : Option (Fs (List R)) :=
  outs.foldlM (fun fs o => logProbes nTubes tubePath plenumPath o.1 o.2 fs) fs

/-- `PerfectGasProbesOutput::operator()`: the number of fields is computed by a division by the number of probes. /repo/src/AMReX/cutcell/output/PerfectGasProbesOutput.cpp:209-236 -/
def gasProbes (nProbes : ℕ) (path : String) (row : R) (fs : Fs (List R)) : Option (Fs (List R)) :=
  if nProbes = 0 then none else some (writeProbes fs path row)

/-- The constructor of `PerfectGasProbesOutput` (an old file is moved away) and a run. /repo/src/AMReX/cutcell/output/PerfectGasProbesOutput.cpp:33-66, 209-236 -/
def gasProbesRun (nProbes : ℕ) (path : String) (limit : ℕ) (rows : List R) (fs : Fs (List R)) : Option (Fs (List R)) :=
  rows.foldlM (fun fs r => gasProbes nProbes path r fs) (renameIfExists fs path limit)

end Run

end Fub
