import Verif.Model.Splitting
import Mathlib.Algebra.BigOperators.Group.List.Basic

/-!
# Specification vocabulary for splitting methods
-/

namespace Fub

/-- Execute a schedule - a list of (operator number, step size) - in order and stop at the first failure. -/
def runSchedule {K S E : Type} (ops : List (Op K S E)) : List (Nat × K) → S → S × Option E
  | [], s => (s, none)
  | (i, dt) :: rest, s =>
    match ops[i]? with
    | none => (s, none)
    | some op => match op dt s with
      | (s', some e) => (s', some e)
      | (s', none) => runSchedule ops rest s'

/-- The total time operator `i` is advanced in a schedule. -/
def totalTime {K : Type} [AddCommMonoid K] (i : Nat) (sched : List (Nat × K)) : K :=
  ((sched.filter (fun p => p.1 == i)).map Prod.snd).sum

end Fub
