import Verif.Model.Feedback
import Mathlib.Algebra.BigOperators.Intervals
import Mathlib.Order.Interval.Finset.Basic

/-!
# Specification vocabulary: a tube between two plena

The patches of a tube split its cells; the compressor plenum, the tube and the turbine plenum together are one reservoir of gas, which takes gas from the compressor and gives gas to the turbine.
-/

namespace Fub
open Finset

/-- Every cell `first, …, last` of the tube belongs to exactly one patch, and the patches are not empty. A patch of the cells `lo, …, hi - 1` has the faces `lo, …, hi`. -/
structure TubeEnds.Partition (t : TubeEnds) : Prop where
  dom : t.first ≤ t.last
  inside : ∀ p ∈ t.procs.flatten, t.first ≤ p.lo ∧ p.lo < p.hi ∧ p.hi ≤ t.last + 1
  once : ∀ c, t.first ≤ c → c ≤ t.last → t.procs.flatten.countP (fun p => decide (p.lo ≤ c ∧ c < p.hi)) = 1

/-- One time step of the tube: its mass fluxes and the size of the step. -/
structure TubeStep where
  tube : TubeEnds
  flux : ℤ → ℝ
  dt : ℝ

/-- All patches hold the mass fluxes `flux`, and the cells `a, …, b` of the tube are split into patches. -/
structure TubeStep.Good (a b : ℤ) (x : TubeStep) : Prop where
  first : x.tube.first = a
  last : x.tube.last = b
  part : x.tube.Partition
  agree : ∀ p ∈ x.tube.procs.flatten, ∀ f, p.lo ≤ f → f ≤ p.hi → p.rho f = x.flux f
  dt : x.dt ≠ 0

/-- The densities in the tube, the control, and the mass taken from the compressor and given to the turbine so far. -/
structure Coupled where
  rho : ℤ → ℝ
  ctl : ControlState
  taken : ℝ
  given : ℝ

/-- The mass in compressor plenum, tube and turbine plenum; `A` is the cross section of the tube, `dx` the size of its cells. -/
noncomputable def Coupled.mass (o : ControlOptions) (A dx : ℝ) (a b : ℤ) (c : Coupled) : ℝ :=
  o.volumeCompressor * (c.ctl.compressor.pressure / c.ctl.compressor.temperature) + A * dx * ∑ i ∈ Icc a b, c.rho i +
  o.volumeTurbine * (c.ctl.turbine.pressure / c.ctl.turbine.temperature)

/-- A conservative step of the tube followed by the feedback. The running averages `mass_flow_in` of the compressor and `mass_flow_out` of the turbine tell what was taken and given in this step. -/
noncomputable def Coupled.next (dx : ℝ) (x : TubeStep) (c : Coupled) (s : ControlState) : Coupled where
  rho := fun i => c.rho i + x.dt / dx * (x.flux i - x.flux (i + 1))
  ctl := s
  taken := c.taken + (s.compressor.massFlowIn - (1 - x.dt) * c.ctl.compressor.massFlowIn)
  given := c.given + (s.turbine.massFlowOut - (1 - x.dt) * c.ctl.turbine.massFlowOut)

/-- Histories of successful time steps in which the turbine plenum keeps a pressure. -/
inductive CoupledRun (eq : MixEq) (o : ControlOptions) (correlation dx : ℝ) : List TubeStep → Coupled → Coupled → Prop
  | nil (c : Coupled) : CoupledRun eq o correlation dx [] c c
  | cons {x : TubeStep} {xs : List TubeStep} {c c' : Coupled} {s : ControlState} (h : tubeFeedback eq o correlation x.tube x.dt c.ctl = some s) (hp : s.turbine.pressure ≠ 0)
      (h' : CoupledRun eq o correlation dx xs (c.next dx x s) c') : CoupledRun eq o correlation dx (x :: xs) c c'

end Fub
