import Verif.Model.SplitGradient
import Verif.Spec.Splitting

/-!
Specification of a step of the second order cut-cell method (C196): a time step is a list of directional sweeps. At the begin of a sweep the wall reference states are computed from the
states and their gradients. Each step of the sweep uses these reference states and the gradients of its present states. There is no other memory.
-/

namespace Fub

section
variable {K S G R : Type} [LinearOrder K]

/-- The states with which a split step starts: if the direction was used before in this time step then the boundary condition of this direction is applied. -/
def startOfSplit (o : GradOps K S G R) (level : Nat) (seen : List Int) (dir : Int) (s : S) : S := if dir ∈ seen then o.bc level dir s else s

/-- The steps of one sweep with given reference states; the first step that is too large ends the run. -/
def idealSweep (o : GradOps K S G R) (level : Nat) (r : R) : List (Int × K) → List Int → S → S × Option (StepErr K)
  | [], _, s => (s, none)
  | (dir, dt) :: rest, seen, s =>
    let s1 := startOfSplit o level seen dir s
    let limit := minAll (o.stable level s1 dir) o.ranks
    if limit < dt then (s1, some { dt := limit, level := level })
    else idealSweep o level r rest (dir :: seen) (o.advance level dt dir (o.grad level s1) r s1)

/-- All sweeps of a time step. -/
def idealSweeps (o : GradOps K S G R) (level : Nat) : List (List (Int × K)) → List Int → S → S × Option (StepErr K)
  | [], _, s => (s, none)
  | [] :: more, seen, s => idealSweeps o level more seen s
  | ((dir, dt) :: rest) :: more, seen, s =>
    let s1 := startOfSplit o level seen dir s
    let r := o.walls level s1 (o.grad level s1)
    andThen (idealSweep o level r ((dir, dt) :: rest) seen s) (idealSweeps o level more ((((dir, dt) :: rest).map Prod.fst).reverse ++ seen))

/-- The closures of the directions called one after the other until one fails. -/
def runDirSteps {T : Type} (o : DirOps K T) (level : Nat) : List (Int × K) → SplitState T → SplitState T × Option (StepErr K)
  | [], st => (st, none)
  | (dir, dt) :: rest, st => andThen (splitOp o level dir dt st) (runDirSteps o level rest)

/-- The level data and the result of a run of the code, if it is defined. -/
def levelOutcome (level : Nat) (r : Option (GradMem S G R) × Option (StepErr K)) : Option (S × Option (StepErr K)) := r.1.map fun m => (m.lev level, r.2)

end

end Fub
