import Verif.Model.LevelIntegrator
import Verif.Spec.Splitting

/-!
# Specification vocabulary for the split level integrator
-/

namespace Fub

/-- What happens to the data of a level. -/
inductive DirEv (K S : Type) where
  /-- fluxes are computed from this state -/
  | fluxes (dir : Int) (dt : K) (state : S)
  | update (dir : Int) (dt : K)
  | complete (dt : K)
  | accumulate (dir : Int) (dt : K)

/-- One sweep in one direction, started in this state. -/
structure FluxEv (K S : Type) where
  dir : Int
  dt : K
  state : S

/-- The events of a sweep: fluxes, conservative update, completion, flux accumulation, all with the same step size and direction. -/
def FluxEv.events {K S : Type} (x : FluxEv K S) : List (DirEv K S) :=
  [.fluxes x.dir x.dt x.state, .update x.dir x.dt, .complete x.dt, .accumulate x.dir x.dt]

/-- Observe a context: every operation that changes the data is recorded; otherwise the operations are unchanged. -/
def DirOps.observed {K S : Type} (o : DirOps K S) : DirOps K (S × List (DirEv K S)) where
  ranks := o.ranks
  applyBc := fun d s => (o.applyBc d s.1, s.2)
  preSplit := fun dt d n s => (o.preSplit dt d n s.1, s.2)
  localDt := fun s d r => o.localDt s.1 d r
  fluxes := fun dt d s => (o.fluxes dt d s.1, s.2 ++ [.fluxes d dt s.1])
  update := fun dt d s => (o.update dt d s.1, s.2 ++ [.update d dt])
  complete := fun dt s => (o.complete dt s.1, s.2 ++ [.complete dt])
  accumulate := fun dt d s => (o.accumulate dt d s.1, s.2 ++ [.accumulate d dt])

/-- `M` executes, for any number `N` of operators, a schedule that advances each operator by `dt` in total. Godunov, Strang and
lumped Strang splitting do (`godunov_schedule`, `strang_schedule`, `lumped_schedule`). -/
def IsSplitting {K S E : Type} [Field K] (M : Split2 K S E) : Prop :=
  ∀ (N : Nat) (dt : K), ∃ sched : List (Nat × K), (∀ q ∈ sched, q.1 < N) ∧ (∀ i < N, totalTime i sched = dt) ∧
    ∀ ops : List (Op K S E), ops.length = N → ∀ s, advanceRec M ops dt s = runSchedule ops sched s

/-- Sum of the step sizes of the sweeps in direction `d`. -/
def fluxTime {K S : Type} [AddCommMonoid K] (d : Int) (l : List (FluxEv K S)) : K :=
  ((l.filter (fun e => e.dir == d)).map FluxEv.dt).sum

end Fub
