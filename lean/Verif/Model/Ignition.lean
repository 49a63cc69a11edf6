import Mathlib.Algebra.Field.Basic
import Mathlib.Algebra.Order.Field.Basic

/-!
Triggered ignition of a detonation in a tube. Source: `/repo/src/AMReX/IgniteDetonation.cpp`.

Simplifications: exact numbers instead of `double`; the reactor is a parameter: a cell is described by its temperature, and burning is an operation on cells that is only named here.
-/

namespace Fub
variable {K : Type} [Field K] [LinearOrder K]

/-- `IgniteDetonationOptions`. /repo/include/fub/AMReX/IgniteDetonation.hpp:37-53 -/
structure IgniteOptions (K : Type) where
  measurementPosition : K
  criterium : K
  temperatureLow : K
  temperatureHigh : K
  rampWidth : K
  ignitePosition : K
  offset : K
  interval : K

/-- The constructor: every level starts with the smallest positive normalised number. /repo/src/AMReX/IgniteDetonation.cpp:58-63 -/
def igniteInit (tiny : K) : ℕ → K := fun _ => tiny

/-- `GetNextIgnitionTimePoint`. /repo/src/AMReX/IgniteDetonation.cpp:121-128 -/
def nextIgnition (o : IgniteOptions K) (last : ℕ → K) (level : ℕ) : K := if last level < o.offset then o.offset else last level + o.interval

/-- `GatherMoles_`: every process contributes the mole fractions of the cell it found, or zeros; the sum is returned. /repo/src/AMReX/IgniteDetonation.cpp:107-117 -/
def gatherMoles (ranks : List (Option (K × K))) : K × K := ranks.foldl (fun acc r => match r with | some m => (acc.1 + m.1, acc.2 + m.2) | none => acc) (0, 0)

/-- The equivalence ratio from the mole fractions of hydrogen and oxygen. /repo/src/AMReX/IgniteDetonation.cpp:149-152 -/
def equivalenceRatio (moles : K × K) : K := if moles.2 ≠ 0 then 1 / 2 * moles.1 / moles.2 else 0

/-- What happens to a cell. Serves the model of /repo/src/AMReX/IgniteDetonation.cpp:165-197. -/
inductive IgniteAction (K : Type)
  | keep
  | burn
  | heat (temperature : K)
deriving DecidableEq

/-- The cell loop for one cell at `x` with temperature `T`. /repo/src/AMReX/IgniteDetonation.cpp:165-197 -/
def igniteCell (o : IgniteOptions K) (xIgnite x T : K) : IgniteAction K :=
  let width := o.rampWidth
  if x < xIgnite - width then .burn
  else if xIgnite - width ≤ x ∧ x < xIgnite then
    let d := (xIgnite - x) / width
    .heat (max T (d * o.temperatureLow + (1 - d) * o.temperatureHigh))
  else if xIgnite ≤ x ∧ x < xIgnite + width then
    let d := (x - xIgnite) / width
    .heat (max T (d * o.temperatureLow + (1 - d) * o.temperatureHigh))
  else .keep

/-- The position of the ignition: at least one cell width away from the ends of the domain. /repo/src/AMReX/IgniteDetonation.cpp:143-147,156 -/
def ignitePoint (position lo hi dx : K) : K := max (lo + dx) (min position (hi - dx))

/-- `AdvanceLevel`: the new ignition times, and whether the cells are ignited. /repo/src/AMReX/IgniteDetonation.cpp:136-219 -/
def igniteStep (o : IgniteOptions K) (last : ℕ → K) (level : ℕ) (time : K) (moles : K × K) : (ℕ → K) × Bool :=
  let next := nextIgnition o last level
  if next < time then
    if o.criterium < equivalenceRatio moles then (Function.update last level next, true) else (last, false)
  else (last, false)

end Fub
