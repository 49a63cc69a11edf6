import Verif.Model.RunLoop

/-!
# Specification vocabulary for the run loop (independent of the loop itself)
-/

namespace Fub

/-- The most recent attempt in a trace (traces are newest first), if any: start state, time and error. -/
def lastAttempt {K S : Type} : List (Event K S) → Option (S × K × Option K)
  | [] => none
  | .attempt s t _ _ e :: _ => some (s, t, e)
  | .output _ _ :: rest => lastAttempt rest

/-- The error reported by the most recent attempt, if that attempt failed. -/
def pendingError {K S : Type} (tr : List (Event K S)) : Option K :=
  (lastAttempt tr).bind (fun a => a.2.2)

/-- The invocations of the output recorded in a trace: state and time (newest first). -/
def outputsOf {K S : Type} : List (Event K S) → List (S × K)
  | [] => []
  | .attempt _ _ _ _ _ :: rest => outputsOf rest
  | .output s t :: rest => (s, t) :: outputsOf rest

/-- All step size estimates the solver may report are positive. -/
def Solver.PosEstimates {K S : Type} [Zero K] [LT K] (σ : Solver K S) : Prop :=
  (∀ s, 0 < σ.stableDt s) ∧ ∀ s dt s' e, σ.advance s dt = (s', some e) → 0 < e

/-- The schedule always asks for outputs in the future. -/
def Output.Future {K S : Type} [LT K] (w : Output K S) : Prop :=
  ∀ t u, w.nextOutputTime t = some u → t < u

/-- The contract of a time-accurate solver: a successful hierarchy step of size `dt` moves the time by `dt`
and the cycle counter by one, preparing and copying do not touch them. -/
structure Solver.Lawful {K S : Type} [Add K] (σ : Solver K S) : Prop where
  pre_time : ∀ s, σ.gridTime (σ.preAdvance s) = σ.gridTime s
  copy_time : ∀ s, σ.gridTime (σ.copy s) = σ.gridTime s
  post_time : ∀ s dt s', σ.advance s dt = (s', none) →
    σ.gridTime (σ.postAdvance s' dt) = σ.gridTime s + dt ∧
    σ.time (σ.postAdvance s' dt) = some (σ.gridTime s + dt)
  pre_cycles : ∀ s, σ.gridCycles (σ.preAdvance s) = σ.gridCycles s
  copy_cycles : ∀ s, σ.gridCycles (σ.copy s) = σ.gridCycles s
  post_cycles : ∀ s dt s', σ.advance s dt = (s', none) →
    σ.gridCycles (σ.postAdvance s' dt) = σ.gridCycles s + 1 ∧
    σ.cycles (σ.postAdvance s' dt) = some (σ.gridCycles s + 1)

/-- All step size estimates the solver may report are non-negative. -/
def Solver.NonnegEstimates {K S : Type} [Zero K] [LE K] (σ : Solver K S) : Prop :=
  (∀ s, 0 ≤ σ.stableDt s) ∧ ∀ s dt s' e, σ.advance s dt = (s', some e) → 0 ≤ e

/-- The schedule never asks for an output in the past. -/
def Output.NotPast {K S : Type} [LE K] (w : Output K S) : Prop :=
  ∀ t u, w.nextOutputTime t = some u → t ≤ u

/-- Final control points. -/
def Pc.isFinal : Pc → Prop
  | .done | .aborted | .ub => True
  | _ => False

/-- The loop is still running or exited normally. -/
def Pc.live : Pc → Prop
  | .outer | .inner | .done => True
  | _ => False

end Fub
