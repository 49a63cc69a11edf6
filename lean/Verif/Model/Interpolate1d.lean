import Verif.Model.Logging
import Verif.Model.Gas

/-!
# Initial data from a one dimensional solution

Model of `InterpolateFrom1d`, `/repo/src/AMReX/cutcell/initial_data/InterpolateFrom1d.cpp`. HDF5 is not modelled: a dataset is a function of row and column.
-/

namespace Fub

section
variable {K : Type*}

/-- `H5Dread` of a dataset with `cols` columns: row by row, `/repo/src/AMReX/cutcell/initial_data/InterpolateFrom1d.cpp:49-50`. -/
def readRaw (dataset : ℕ → ℕ → K) (cols : ℕ) : ℕ → K := fun k => dataset (k / cols) (k % cols)

/-- The transposition, `/repo/src/AMReX/cutcell/initial_data/InterpolateFrom1d.cpp:51-56`: the data are seen as a column-major matrix of `cols` rows, and
its transpose, a matrix of `rows` rows, is copied back column by column. -/
def transposeRaw (raw : ℕ → K) (rows cols : ℕ) : ℕ → K :=
  let m : ℕ → ℕ → K := fun i j => raw (i + j * cols)
  let t : ℕ → ℕ → K := fun i j => m j i
  fun k => t (k % rows) (k / rows)

/-- `raw_prims(i, v)`, `/repo/src/AMReX/cutcell/initial_data/InterpolateFrom1d.cpp:72-73`: column-major with `size / n_vars` rows, `n_vars = 6`. -/
def rawPrims (raw : ℕ → K) (size : ℕ) (i v : ℕ) : K := raw (i + v * (size / 6))

variable [Field K] [LinearOrder K]

/-- The value of one variable in the cell from `xlo` to `xhi`, `/repo/src/AMReX/cutcell/initial_data/InterpolateFrom1d.cpp:84-138`: `xs` are the `n`
positions, `val` the values of the variable. -/
def interpColumn (xs val : ℕ → K) (n : ℕ) (xlo xhi : K) : K :=
  let lo := lowerBound (fun i => decide (xs i < xlo)) n + 1
  let up := lowerBound (fun i => decide (xs i < xhi)) n
  if n ≤ up then val (n - 1)
  else if ¬ lo < up then val up
  else
    let m := up - lo
    (List.range m).foldl (fun (s : K) k => s + val (lo + k)) 0 / (m : K)

/-- Density, velocity and pressure of a cell, `/repo/src/AMReX/cutcell/initial_data/InterpolateFrom1d.cpp:65-70` and `84-138`: the columns 1, 2 and 5. -/
def interpPrims (raw : ℕ → K) (size : ℕ) (xlo xhi : K) : K × K × K :=
  let xs := fun i => rawPrims raw size i 0
  let n := size / 6
  (interpColumn xs (fun i => rawPrims raw size i 1) n xlo xhi,
    interpColumn xs (fun i => rawPrims raw size i 2) n xlo xhi,
    interpColumn xs (fun i => rawPrims raw size i 5) n xlo xhi)

end

/-- The state of a cell after `InitializeData`, `/repo/src/AMReX/cutcell/initial_data/InterpolateFrom1d.cpp:82-142`: cells without free volume keep their
old state. -/
noncomputable def interp1dCell {d : ℕ} (eq : GasEq) (alpha : ℝ) (old : GasComplete (d + 1))
    (raw : ℕ → ℝ) (size : ℕ) (xlo xhi : ℝ) : GasComplete (d + 1) :=
  if alpha > 0 then
    let w := interpPrims raw size xlo xhi
    gasFromPrim eq ⟨w.1, fun i => if i = 0 then w.2.1 else 0, w.2.2⟩
  else old

end Fub
