import Verif.Model.Hdf5File

/-!
Specification of a probe file: its rows, in the order of the outputs.
-/

namespace Fub

/-- The file exists and consists of these rows; with no rows there is no file. -/
def FileRows {R : Type} (fs : Fs (List R)) (name : String) (rows : List R) : Prop :=
  fs name = if rows = [] then none else some (.file rows)

/-- The probes of plenum `i` that the user asked for if the list has those of the first plenum, then those of the second one, and so on. -/
def wantedPlenumProbe {K : Type} (xs : List (ℕ → K)) (nPlena i k d : ℕ) : Option K :=
  if k < xs.length / nPlena then xs[i * (xs.length / nPlena) + k]?.map fun x => x d else none

end Fub
