import Verif.Model.Subcycle

/-!
# Specification vocabulary for subcycling

What a user may observe of a coarse time step is the sequence of level operations. A schedule is a list of such operations
(`LevelEv`), `runEvents` executes it and stops at the first failure.
-/

namespace Fub

/-- One observable operation on the hierarchy. -/
inductive LevelEv (K : Type) where
  /-- prepare level, may regrid finer levels -/
  | pre (l : Nat) (dt : K) (sub : Nat × Nat)
  /-- clear the flux register between two levels -/
  | reset (fine coarse : Nat)
  /-- advance one level in time by `dt` -/
  | adv (l : Nat) (dt : K) (sub : Nat × Nat)
  /-- correct the coarse level with the flux register -/
  | corr (fine coarse : Nat) (dt : K)
  /-- average the fine data onto the coarse level -/
  | coarsen (fine coarse : Nat)
  /-- recompute dependent variables -/
  | complete (l : Nat) (dt : K)
  /-- publish the result of the level -/
  | copyBack (l : Nat)
  /-- fill ghost cells of level 0 -/
  | fillSingle (l : Nat)
  /-- fill ghost cells of a refined level -/
  | fillTwo (fine coarse : Nat)
  /-- finish the step of the level: clocks, checks -/
  | post (l : Nat) (dt : K) (sub : Nat × Nat)
deriving DecidableEq

section
variable {K S : Type}

/-- Execute one operation. -/
def LevelEv.exec (B : LevelSys K S) : LevelEv K → S → S × Option (StepErr K)
  | .pre l dt sub, s => (B.pre l dt sub s, none)
  | .reset f c, s => (B.reset f c s, none)
  | .adv l dt sub, s => B.adv l dt sub s
  | .corr f c dt, s => (B.corr f c dt s, none)
  | .coarsen f c, s => (B.coarsen f c s, none)
  | .complete l dt, s => (B.complete l dt s, none)
  | .copyBack l, s => (B.copyBack l s, none)
  | .fillSingle l, s => (B.fillSingle l s, none)
  | .fillTwo f c, s => (B.fillTwo f c s, none)
  | .post l dt sub, s => B.post l dt sub s

/-- Execute a schedule in order and stop at the first failure. -/
def runEvents (B : LevelSys K S) : List (LevelEv K) → S → S × Option (StepErr K)
  | [], s => (s, none)
  | e :: es, s => match e.exec B s with
    | (s', some err) => (s', some err)
    | (s', none) => runEvents B es s'

/-- The step sizes used to advance level `k`, in order. -/
def advDts (k : Nat) (es : List (LevelEv K)) : List K :=
  es.filterMap fun e => match e with
    | .adv l dt _ => if l = k then some dt else none
    | _ => none

/-- The operations that exchange fluxes or averages between level `k` and level `k + 1`. -/
inductive PairEv where
  | reset | advFine | advCoarse | corr | coarsen
deriving DecidableEq

/-- Projection of an operation to the pair of levels `k`, `k + 1`. -/
def LevelEv.pair (k : Nat) : LevelEv K → Option PairEv
  | .reset f c => if f = k + 1 ∧ c = k then some .reset else none
  | .adv l _ _ => if l = k + 1 then some .advFine else if l = k then some .advCoarse else none
  | .corr f c _ => if f = k + 1 ∧ c = k then some .corr else none
  | .coarsen f c => if f = k + 1 ∧ c = k then some .coarsen else none
  | _ => none

/-- What happens between the levels `k` and `k + 1` in a schedule. -/
def pairTrace (k : Nat) (es : List (LevelEv K)) : List PairEv := es.filterMap (LevelEv.pair k)

/-- Only `PreAdvanceLevel` of a level changes which levels exist, and it changes only finer levels; there are at most `M`
levels. (In the AMReX context this is the regridding of all finer levels in `PreAdvanceLevel`.) -/
structure LevelSys.RegridOnlyFiner (B : LevelSys K S) (M : Nat) : Prop where
  pre : ∀ l dt sub s k, k ≤ l → B.levelExists (B.pre l dt sub s) k = B.levelExists s k
  reset : ∀ f c s k, B.levelExists (B.reset f c s) k = B.levelExists s k
  adv : ∀ l dt sub s k, B.levelExists (B.adv l dt sub s).1 k = B.levelExists s k
  corr : ∀ f c dt s k, B.levelExists (B.corr f c dt s) k = B.levelExists s k
  coarsen : ∀ f c s k, B.levelExists (B.coarsen f c s) k = B.levelExists s k
  complete : ∀ l dt s k, B.levelExists (B.complete l dt s) k = B.levelExists s k
  copyBack : ∀ l s k, B.levelExists (B.copyBack l s) k = B.levelExists s k
  fillSingle : ∀ l s k, B.levelExists (B.fillSingle l s) k = B.levelExists s k
  fillTwo : ∀ f c s k, B.levelExists (B.fillTwo f c s) k = B.levelExists s k
  post : ∀ l dt sub s k, B.levelExists (B.post l dt sub s).1 k = B.levelExists s k
  bounded : ∀ s k, M ≤ k → B.levelExists s k = false

end

/-- The shape of one step of level `l` by `dt`: prepare; if a finer level exists, clear the register, take `ratio` steps of
the finer level by `dt / ratio` and only then advance this level, correct it with the register and average the fine data
down; publish and finish. `ok k b` constrains the answers `b` to "does level `k` exist". -/
inductive LevelTrace {K : Type} [Field K] (ratio : Nat → Nat) (ok : Nat → Bool → Prop) :
    Nat → K → Nat × Nat → List (LevelEv K) → Prop
  | finest (l dt sub) : ok (l + 1) false →
      LevelTrace ratio ok l dt sub [.pre l dt sub, .adv l dt sub, .copyBack l, .post l dt sub]
  | refined (l dt sub) (f : Nat → List (LevelEv K)) : ok (l + 1) true →
      (∀ r, r < ratio (l + 1) →
        LevelTrace ratio ok (l + 1) (dt / (ratio (l + 1) : K)) (r, ratio (l + 1)) (f r)) →
      LevelTrace ratio ok l dt sub
        ([.pre l dt sub, .reset (l + 1) l] ++ (List.range (ratio (l + 1))).flatMap f ++
         [.adv l dt sub, .corr (l + 1) l dt, .coarsen (l + 1) l, .complete l dt, .copyBack l, .post l dt sub])

/-- Fill the ghost cells of level `l`. -/
def fillEv {K : Type} (l : Nat) : LevelEv K := if l = 0 then .fillSingle l else .fillTwo l (l - 1)

/-- The operations of one step of level `l` by `dt` without subcycling, when `n` finer levels exist. -/
def nscEvents {K : Type} (dt : K) : Nat → Nat → List (LevelEv K)
  | 0, l => [.pre l dt (0, 1), .adv l dt (0, 1), .copyBack l,
      fillEv l, .post l dt (0, 1)]
  | n + 1, l => [.pre l dt (0, 1), .reset (l + 1) l] ++ nscEvents dt n (l + 1) ++
      [.adv l dt (0, 1), .corr (l + 1) l dt, .coarsen (l + 1) l, .complete l dt, .copyBack l,
       fillEv l, .post l dt (0, 1)]

/-- The hierarchy has exactly the levels `0, ..., L - 1`. -/
def exactly (L : Nat) : Nat → Bool → Prop := fun k b => b = decide (k < L)

end Fub
