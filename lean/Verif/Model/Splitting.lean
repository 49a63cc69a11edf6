import Mathlib.Algebra.Field.Basic

/-!
# Model of the operator splitting methods

Source: `/repo/include/fub/split_method/SplittingMethod.hpp`,
`/repo/src/split_method/{GodunovSplitting,StrangSplitting,StrangSplittingLumped}.cpp`.

Simplifications: `Duration` is an exact number in a field `K`; an `AdvanceFunction` is a function that
maps a step size and the whole program state `S` (including the mutable state captured by the closures) to the new
state and an optional error. A failing operator may have changed the state.
-/

namespace Fub

/-- `SplittingMethod::AdvanceFunction`, /repo/include/fub/split_method/SplittingMethod.hpp:38. -/
abbrev Op (K S E : Type) := K → S → S × Option E

/-- A splitting of two operators, `SplittingMethod::Advance(dt, advance1, advance2)`,
/repo/include/fub/split_method/SplittingMethod.hpp:63-65. -/
abbrev Split2 (K S E : Type) := K → Op K S E → Op K S E → S → S × Option E

/-- `if (!result) return result.as_failure();` before continuing with `k`. Serves the model of /repo/src/split_method/GodunovSplitting.cpp:25-34. -/
def andThen {S E : Type} (r : S × Option E) (k : S → S × Option E) : S × Option E :=
  match r.2 with
  | some e => (r.1, some e)
  | none => k r.1

section
variable {K S E : Type} [Field K]

/-- `GodunovSplitting::Advance`, /repo/src/split_method/GodunovSplitting.cpp:25-34. -/
def godunovSplit : Split2 K S E := fun dt a1 a2 s =>
  andThen (a1 dt s) (fun s => a2 dt s)

/-- `StrangSplitting::Advance` for two operators, /repo/src/split_method/StrangSplitting.cpp:25-42. -/
def strangSplit : Split2 K S E := fun dt a1 a2 s =>
  andThen (a1 (1 / 2 * dt) s) fun s =>
  andThen (a2 (1 / 2 * dt) s) fun s =>
  andThen (a2 (1 / 2 * dt) s) fun s =>
  a1 (1 / 2 * dt) s

/-- `StrangSplitting::Advance` for three operators, /repo/src/split_method/StrangSplitting.cpp:44-69. -/
def strangSplit3 (dt : K) (a1 a2 a3 : Op K S E) (s : S) : S × Option E :=
  andThen (a1 (1 / 2 * dt) s) fun s =>
  andThen (a2 (1 / 2 * dt) s) fun s =>
  andThen (a3 (1 / 2 * dt) s) fun s =>
  andThen (a3 (1 / 2 * dt) s) fun s =>
  andThen (a2 (1 / 2 * dt) s) fun s =>
  a1 (1 / 2 * dt) s

/-- `StrangSplittingLumped::Advance`, /repo/src/split_method/StrangSplittingLumped.cpp:25-39. -/
def lumpedSplit : Split2 K S E := fun dt a1 a2 s =>
  andThen (a1 (1 / 2 * dt) s) fun s =>
  andThen (a2 dt s) fun s =>
  a1 (1 / 2 * dt) s

/-- `SplittingMethod::AdvanceRecursively` together with the one-operator overload of `Advance`,
/repo/include/fub/split_method/SplittingMethod.hpp:42-60. The parameter pack is a list; the C++ templates
require at least one operator (the empty list does nothing here and does not occur). -/
def advanceRec (M : Split2 K S E) : List (Op K S E) → K → S → S × Option E
  | [], _, s => (s, none)
  | [a], dt, s => a dt s
  | [a, b], dt, s => M dt a b s
  | a :: b :: c :: rest, dt, s => M dt a (fun dt' => advanceRec M (b :: c :: rest) dt') s

/-- `AnySplitMethod` (/repo/include/fub/split_method/SplittingMethod.hpp:75-113) stores only the two-operator `Advance`
of the wrapped method; three operators go through the inherited recursion (lines 68-72). -/
def anySplit3 (M : Split2 K S E) (dt : K) (a1 a2 a3 : Op K S E) (s : S) : S × Option E :=
  advanceRec M [a1, a2, a3] dt s

end

/-- `MakeSplitDirections<Rank>(cycle, subcycle)`, /repo/include/fub/split_method/SplittingMethod.hpp:115-126.
`%` is the truncated remainder of C++. -/
def makeSplitDirections (rank : Nat) (cycle subcycle : Int) : List Int :=
  let isOdd : Int := ((cycle.tmod 2) + subcycle).tmod 2
  let isEven : Int := if isOdd = 0 then 1 else 0
  (List.range rank).map (fun (i : Nat) => isEven * (i : Int) + isOdd * ((rank : Int) - 1 - (i : Int)))

end Fub
