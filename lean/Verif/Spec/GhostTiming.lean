import Verif.Model.GhostTiming

/-!
# Specification vocabulary: what a level step may read

`Current s l` says that the ghost cells of level `l` are what filling them now would give. `withFreshGhosts` is the program that fills the ghost cells
of a level immediately before it advances the level, `withFreshRefs` the program that computes the wall reference states immediately before. That ghost cells
and reference states are never out of date when they are used means that these programs compute the same as the original one.
-/

namespace Fub

section
variable {K I J C A : Type}

/-- The ghost cells of level `l` are what filling them now would give. -/
def GOps.Current (o : GOps K I J C A) (s : GRun K I J C A) (l : Nat) : Prop := (s.lev l).ghost = o.fillValue s l

/-- All levels are at the same time and all their ghost cells are current: the situation between two coarse steps. -/
structure GOps.Synced (o : GOps K I J C A) (s : GRun K I J C A) : Prop where
  pos : 0 < s.n
  max : s.n ≤ o.maxLevels
  time : ∀ k, k < s.n → (s.lev k).time = (s.lev 0).time
  current : ∀ k, k < s.n → o.Current s k

variable [Field K] [LinearOrder K]

/-- The program that fills the ghost cells of a level immediately before advancing it. -/
def withFreshGhosts (o : GOps K I J C A) (B : LevelSys K (GRun K I J C A)) : LevelSys K (GRun K I J C A) :=
  { B with
    adv := fun l dt sub s => B.adv l dt sub (o.fillAt l s) }

/-- Recompute the wall reference states of the cells of level `l`, and those of its ghost cells if `g l s`. -/
def freshRefsAt (o : GOps K I J C A) (g : Nat → GRun K I J C A → Bool) (l : Nat) (s : GRun K I J C A) : GRun K I J C A :=
  { s with
    lev := fun k => if k = l then
      (if g l s then o.refreshLevel l (s.lev l) else { s.lev l with ref := (o.refreshLevel l (s.lev l)).ref })
      else s.lev k }

/-- The program that computes the wall reference states of a level immediately before advancing it; in ghost cells only if `g`. -/
def withFreshRefs (o : GOps K I J C A) (g : Nat → GRun K I J C A → Bool) (B : LevelSys K (GRun K I J C A)) : LevelSys K (GRun K I J C A) :=
  { B with
    adv := fun l dt sub s => B.adv l dt sub (freshRefsAt o g l s) }

/-- The level is at the time of the coarsest one, or there is a finer level. -/
def notLateFinest (l : Nat) (s : GRun K I J C A) : Bool := decide ((s.lev l).time = (s.lev 0).time ∨ l + 1 < s.n)

/-- Coarse time steps of the given sizes until the first failure; `none` if the program is undefined. -/
def runSteps (B : LevelSys K (GRun K I J C A)) (M : Nat) (freq : Int) : List K → GRun K I J C A → Option (GRun K I J C A × Option (StepErr K))
  | [], s => some (s, none)
  | dt :: dts, s =>
    match advanceHierarchy B M freq dt s with
    | none => none
    | some (s', some e) => some (s', some e)
    | some (s', none) => runSteps B M freq dts s'

/-- Coarse time steps of `NoSubcycleSolver` of the given sizes until the first failure. -/
def nscSteps (B : LevelSys K (GRun K I J C A)) (M : Nat) : List K → GRun K I J C A → GRun K I J C A × Option (StepErr K)
  | [], s => (s, none)
  | dt :: dts, s => andThen (nscAdvanceLevel B M 0 dt s) (fun s => nscSteps B M dts s)

end

end Fub
