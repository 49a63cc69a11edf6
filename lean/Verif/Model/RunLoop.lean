import Mathlib.Algebra.Order.Field.Basic
import Mathlib.Logic.Function.Iterate

/-!
# Model of the simulation driver `fub::RunSimulation`

Source: `/repo/include/fub/RunSimulation.hpp`, `/repo/include/fub/output/BasicOutput.hpp`.

Simplifications (hold for the whole file)
* `Duration` (a `double` count of seconds) is an exact number in an ordered field `K`.
* Logging, wall-clock bookkeeping and counters are not modelled (they do not influence the loop).
* `FUB_ASSERT(stable_dt > eps)` (line 128) is modelled as compiled out (release mode).
* The solver and the output are arbitrary parameters.  Asking an output *when* to write
  (`NextOutputTime`, `ShallOutputNow`) does not change it.
* `std::numeric_limits<double>::max()`, "no output scheduled", is `none`.
-/

namespace Fub

/-- `fub::RunOptions`, /repo/include/fub/RunSimulation.hpp:47-66 (`do_backup` is an `int` flag). -/
structure RunOptions (K : Type) where
  /-- `final_time` -/
  finalTime : K
  /-- `max_cycles`, negative means unlimited -/
  maxCycles : Int
  /-- `smallest_time_step_size` -/
  eps : K
  /-- `cfl` -/
  cfl : K
  /-- `do_backup != 0` -/
  doBackup : Bool

/-- Default run options, /repo/include/fub/RunSimulation.hpp:61-65. -/
def RunOptions.default (K : Type) [Field K] : RunOptions K :=
  { finalTime := 1, maxCycles := -1, eps := 1 / 10 ^ 12, cfl := 8 / 10, doBackup := true }

/-- The part of the solver interface `RunSimulation` calls
(/repo/include/fub/RunSimulation.hpp:93,106,110,119,127,138,151,162,167,171,180,185).
`S` is the whole solver object.  `none` in `time`/`cycles` is undefined behaviour
(an out-of-range access to the level data of the integrator context). -/
structure Solver (K S : Type) where
  /-- `solver.GetGriddingAlgorithm()->GetTimePoint()` -/
  gridTime : S → K
  /-- `solver.GetGriddingAlgorithm()->GetCycles()` -/
  gridCycles : S → Int
  /-- `solver.GetTimePoint()` -/
  time : S → Option K
  /-- `solver.GetCycles()` -/
  cycles : S → Option Int
  /-- copy construction / copy assignment -/
  copy : S → S
  /-- `solver.PreAdvanceHierarchy()` -/
  preAdvance : S → S
  /-- `solver.ComputeStableDt()` -/
  stableDt : S → K
  /-- `solver.AdvanceHierarchy(dt)`: new solver state and, on failure, `error().dt` -/
  advance : S → K → S × Option K
  /-- `solver.PostAdvanceHierarchy(dt)` -/
  postAdvance : S → K → S

/-- The part of `fub::BasicOutput` used by `RunSimulation`,
/repo/include/fub/output/BasicOutput.hpp and /repo/include/fub/RunSimulation.hpp:115,186,188.
The grid passed to the output is a part of the solver state. `shallOutputNow = none` is undefined behaviour. -/
structure Output (K S : Type) where
  /-- `NextOutputTime(time_point)`; `none` means `numeric_limits<double>::max()` -/
  nextOutputTime : K → Option K
  /-- `ShallOutputNow(grid)` -/
  shallOutputNow : S → Option Bool

/-- What an observer of the run loop sees. Serves the model of /repo/include/fub/RunSimulation.hpp:183-188. -/
inductive Event (K S : Type) where
  /-- One pass through the body of the inner loop: the solver state it started from, the time point,
  the step size estimate used (`stable_dt`), the step size handed to `AdvanceHierarchy` and its error. -/
  | attempt (start : S) (t est dt : K) (error : Option K)
  /-- `output(grid)` was invoked for this state at this time point -/
  | output (s : S) (t : K)
  deriving DecidableEq

/-- Control point of the loop nest in `RunSimulation`. Serves the model of /repo/include/fub/RunSimulation.hpp:93-108. -/
inductive Pc where
  /-- about to evaluate the condition of the outer `while` (line 109) -/
  | outer
  /-- about to execute the body of the inner `do` loop (line 112) -/
  | inner
  /-- normal exit of the outer loop -/
  | done
  /-- `return` at line 158 -/
  | aborted
  /-- undefined behaviour was executed -/
  | ub
  deriving DecidableEq, Repr

/-- Local variables of `RunSimulation` plus the observable trace (newest event first). Serves the model of /repo/include/fub/RunSimulation.hpp:93-108. -/
structure Config (K S : Type) where
  pc : Pc
  /-- the solver object -/
  solver : S
  /-- `backup` -/
  backup : Option S
  /-- `time_point` -/
  t : K
  /-- `failure_dt` -/
  failureDt : Option K
  /-- ghost: observable events, newest first -/
  trace : List (Event K S)

section
variable {K S : Type} [Field K] [LinearOrder K]

/-- `limited_dt`, /repo/include/fub/RunSimulation.hpp:129-131. -/
def limitedDt (o : RunOptions K) (t : K) (next : Option K) (est : K) : K :=
  let a := min (o.finalTime - t) (o.cfl * est)
  match next with
  | none => a
  | some n => min a (n - t)

/-- `options.max_cycles < 0 || cycles < options.max_cycles`; the second operand is only evaluated when needed. Serves the model of /repo/include/fub/RunSimulation.hpp:183-188. -/
def cyclesOk (o : RunOptions K) (cycles : Option Int) : Option Bool :=
  if o.maxCycles < 0 then some true else cycles.map (fun c => decide (c < o.maxCycles))

/-- Entry of `RunSimulation`, /repo/include/fub/RunSimulation.hpp:93-108. -/
def RunLoop.init (σ : Solver K S) (o : RunOptions K) (s : S) : Config K S :=
  { pc := .outer, solver := s, backup := if o.doBackup then some (σ.copy s) else none,
    t := σ.gridTime s, failureDt := none, trace := [] }

/-- End of the inner loop body: the `while` condition of the inner loop and the output call,
/repo/include/fub/RunSimulation.hpp:183-188. Operands of `&&` are evaluated left to right. -/
def RunLoop.endBody (σ : Solver K S) (o : RunOptions K) (w : Output K S) (c : Config K S) : Config K S :=
  let emit : Config K S := { c with pc := .outer, trace := Event.output c.solver c.t :: c.trace }
  if c.t + o.eps < o.finalTime then
    match cyclesOk o (σ.cycles c.solver) with
    | none => { c with pc := .ub }
    | some false => emit
    | some true =>
      match w.shallOutputNow c.solver with
      | none => { c with pc := .ub }
      | some true => emit
      | some false => { c with pc := .inner }
  else emit

/-- `stable_dt`: the estimate of the last failed attempt if there is one, else `ComputeStableDt()` after
`PreAdvanceHierarchy()`, /repo/include/fub/RunSimulation.hpp:119,126-127. -/
def RunLoop.estOf (σ : Solver K S) (c : Config K S) : K :=
  match c.failureDt with
  | some e => e
  | none => σ.stableDt (σ.preAdvance c.solver)

/-- `limited_dt` of one pass of the body, /repo/include/fub/RunSimulation.hpp:115,129-131. -/
def RunLoop.dtOf (σ : Solver K S) (o : RunOptions K) (w : Output K S) (c : Config K S) : K :=
  limitedDt o c.t (w.nextOutputTime c.t) (RunLoop.estOf σ c)

/-- Body of the inner loop, /repo/include/fub/RunSimulation.hpp:113-182, followed by `endBody`. -/
def RunLoop.body (σ : Solver K S) (o : RunOptions K) (w : Output K S) (c : Config K S) : Config K S :=
  let est := RunLoop.estOf σ c                                       -- 126-127
  let dt := RunLoop.dtOf σ o w c                                     -- 129-131
  let r := σ.advance (σ.preAdvance c.solver) dt                      -- 119, 137-138
  let trace := Event.attempt c.solver c.t est dt r.2 :: c.trace
  match r.2 with
  | some e =>
    if o.doBackup then
      match c.backup with                                            -- 144, 151
      | some b => RunLoop.endBody σ o w
          { c with solver := σ.copy b, failureDt := some e, trace := trace }
      | none => { c with pc := .ub, trace := trace }                 -- dereference of an empty optional
    else { c with pc := .aborted, solver := r.1, trace := trace }    -- 158
  | none =>
    let s' := σ.postAdvance r.1 dt                                   -- 162
    match σ.time s', σ.cycles s' with                                -- 167, 171
    | some t', some _ => RunLoop.endBody σ o w
        { c with solver := s', t := t', failureDt := none, trace := trace,
                 backup := if o.doBackup then some (σ.copy s') else c.backup } -- 176-181
    | _, _ => { c with pc := .ub, solver := s', trace := trace }

/-- One step of the loop nest, /repo/include/fub/RunSimulation.hpp:109-189. -/
def RunLoop.step (σ : Solver K S) (o : RunOptions K) (w : Output K S) (c : Config K S) : Config K S :=
  match c.pc with
  | .outer =>                                                        -- 109-110
    if c.t + o.eps < o.finalTime ∧ (o.maxCycles < 0 ∨ σ.gridCycles c.solver < o.maxCycles) then
      { c with pc := .inner }
    else { c with pc := .done }
  | .inner => RunLoop.body σ o w c
  | _ => c

/-- The state of `RunSimulation(solver, options, output)` after `n` steps. Serves the model of /repo/include/fub/RunSimulation.hpp:86-193. -/
def RunLoop.run (σ : Solver K S) (o : RunOptions K) (w : Output K S) (s : S) (n : Nat) : Config K S :=
  (RunLoop.step σ o w)^[n] (RunLoop.init σ o s)

end
end Fub
