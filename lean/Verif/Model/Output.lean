import Verif.Model.RunLoop
import Mathlib.Algebra.Order.Floor.Ring

/-!
# Model of the output schedules

Source: `/repo/include/fub/output/{OutputAtFrequencyOrInterval,MultipleOutputs,OutputFactory}.hpp`.

Simplifications: exact arithmetic instead of `double`; `numeric_limits<double>::max()` is `none`;
a NaN produced by `fmod(t, 0)` is `none`.
-/

namespace Fub

section
variable {K : Type} [Field K] [LinearOrder K] [IsStrictOrderedRing K] [FloorRing K]

/-- C library `fmod(x, y)`: remainder with the sign of `x`; `none` is NaN (`y = 0`).
Used at /repo/include/fub/output/OutputAtFrequencyOrInterval.hpp:61,81. -/
def fmod (x y : K) : Option K :=
  if y = 0 then none
  else if 0 ≤ x then some (x - |y| * ⌊x / |y|⌋)
  else some (-(-x - |y| * ⌊-x / |y|⌋))

/-- `OutputAtFrequencyOrInterval`, data members at
/repo/include/fub/output/OutputAtFrequencyOrInterval.hpp:101-103. -/
structure FreqOrInterval (K : Type) where
  frequencies : List Int
  intervals : List K
  /-- `smallest_time_step_size_` -/
  epsS : K

/-- One pass of the loop in `NextOutputTime`,
/repo/include/fub/output/OutputAtFrequencyOrInterval.hpp:58-65. -/
def FreqOrInterval.nextStep (f : FreqOrInterval K) (t : K) (acc : Option K) (I : K) : Option K :=
  if 0 < I then
    match fmod t I with
    | none => acc      -- not reachable, `I > 0`
    | some m =>
      let cand := t + ((I - m) + f.epsS)
      some (match acc with | none => cand | some a => min a cand)
  else acc

/-- `NextOutputTime`, /repo/include/fub/output/OutputAtFrequencyOrInterval.hpp:56-67. -/
def FreqOrInterval.nextOutputTime (f : FreqOrInterval K) (t : K) : Option K :=
  f.intervals.foldl (f.nextStep t) none

/-- `any_of(frequencies, cycle % freq == 0)`,
/repo/include/fub/output/OutputAtFrequencyOrInterval.hpp:71-75. `cycle % 0` is undefined behaviour (`none`);
C++ `%` (truncated) is `Int.tmod`. -/
def anyFrequency (cycle : Int) : List Int → Option Bool
  | [] => some false
  | f :: fs => if f = 0 then none else if cycle.tmod f = 0 then some true else anyFrequency cycle fs

/-- The interval test, /repo/include/fub/output/OutputAtFrequencyOrInterval.hpp:79-83
(a comparison with NaN is false). -/
def FreqOrInterval.intervalHit (f : FreqOrInterval K) (t : K) (I : K) : Bool :=
  match fmod t I with
  | none => false
  | some m => decide (|m| < 2 * f.epsS)

/-- `ShallOutputNow`, /repo/include/fub/output/OutputAtFrequencyOrInterval.hpp:69-87. -/
def FreqOrInterval.shallOutputNow (f : FreqOrInterval K) (cycle : Int) (t : K) : Option Bool :=
  match anyFrequency cycle f.frequencies with
  | none => none
  | some true => some true
  | some false => some (decide (t = 0) || f.intervals.any (f.intervalHit t))

/-- `OutputAtFrequencyOrInterval` seen through the `BasicOutput` interface by the run loop. Serves the model of /repo/include/fub/output/OutputAtFrequencyOrInterval.hpp:101-103. -/
def FreqOrInterval.toOutput {S : Type} (f : FreqOrInterval K) (σ : Solver K S) : Output K S :=
  { nextOutputTime := f.nextOutputTime
    shallOutputNow := fun s => f.shallOutputNow (σ.gridCycles s) (σ.gridTime s) }

end

section
variable {K G : Type} [LinearOrder K]

/-- One member of `MultipleOutputs`: a `BasicOutput<Grid>` over grids `G`.
Decisions only; `id` names the member. `ShallOutputNow` is taken to be defined for members. Serves the model of /repo/include/fub/output/MultipleOutputs.hpp:72-76. -/
structure Member (K G : Type) where
  next : K → Option K
  shall : G → Bool

/-- `std::min` on durations where `none` is the maximal double. Serves the model of /repo/include/fub/output/MultipleOutputs.hpp:72-76. -/
def minDur (a b : Option K) : Option K :=
  match a, b with
  | none, b => b
  | a, none => a
  | some a, some b => some (min a b)

/-- The binary operation of the `accumulate` in `MultipleOutputs::NextOutputTime`,
/repo/include/fub/output/MultipleOutputs.hpp:72-76. `none` members are null pointers. -/
def multiNextStep (t : K) (acc : Option K) : Option (Member K G) → Option K
  | some m => minDur acc (m.next t)
  | none => acc

/-- `MultipleOutputs::NextOutputTime`, /repo/include/fub/output/MultipleOutputs.hpp:68-77. -/
def multiNext (ms : List (Option (Member K G))) (t : K) : Option K :=
  ms.foldl (multiNextStep t) none

/-- `MultipleOutputs::ShallOutputNow`, /repo/include/fub/output/MultipleOutputs.hpp:81-86. -/
def multiShall (ms : List (Option (Member K G))) (g : G) : Bool :=
  ms.any (fun m => match m with | some m => m.shall g | none => false)

/-- `MultipleOutputs::operator()`, /repo/include/fub/output/MultipleOutputs.hpp:89-95: the
positions of the invoked members, in order of invocation. -/
def multiInvoked (ms : List (Option (Member K G))) (g : G) : List Nat := go 0 ms
where
  /-- the range-for loop, with the position of the current member -/
  go (i : Nat) : List (Option (Member K G)) → List Nat
    | [] => []
    | some m :: rest => if m.shall g then i :: go (i + 1) rest else go (i + 1) rest
    | none :: rest => go (i + 1) rest

end

/-- A `std::map<std::string, V>` as an association list; `find`. Serves the model of /repo/include/fub/output/OutputFactory.hpp:54-61. -/
def mapFind {V : Type} (m : List (String × V)) (k : String) : Option V :=
  (m.find? (fun p => p.1 == k)).map Prod.snd

/-- `std::map::emplace`: does nothing and returns `false` when the key is present. Serves the model of /repo/include/fub/output/OutputFactory.hpp:43-50. -/
def mapEmplace {V : Type} (m : List (String × V)) (k : String) (v : V) : List (String × V) × Bool :=
  match mapFind m k with
  | some _ => (m, false)
  | none => ((k, v) :: m, true)

/-- `OutputFactory::RegisterOutput`, /repo/include/fub/output/OutputFactory.hpp:43-50. `F` is the type of stored factories. -/
def registerOutput {F : Type} (m : List (String × F)) (name : String) (f : F) : List (String × F) × Bool :=
  mapEmplace m name f

/-- A sequence of `RegisterOutput` calls on a default-constructed factory. Serves the model of /repo/include/fub/output/OutputFactory.hpp:43-50. -/
def registerAll {F : Type} (regs : List (String × F)) : List (String × F) :=
  regs.foldl (fun m r => (registerOutput m r.1 r.2).1) []

/-- `OutputFactory::MakeOutput`, /repo/include/fub/output/OutputFactory.hpp:54-61; `none` is `nullptr`. -/
def makeOutput {F O Opt : Type} (apply : F → Opt → O) (m : List (String × F)) (name : String) (opts : Opt) :
    Option O :=
  match mapFind m name with
  | none => none
  | some f => some (apply f opts)

/-- Option values relevant for outputs: the Python objects stored in a program option map. Serves the model of /repo/include/fub/output/MultipleOutputs.hpp:51-57. -/
inductive OptVal where
  | str (s : String)
  | ints (l : List Int)
  | reals (l : List Rat)
  deriving DecidableEq, Repr

/-- The option map finally handed to the factory for one entry of "outputs" and the type name,
/repo/include/fub/output/MultipleOutputs.hpp:51-57; `none` when the entry has no "type".
A "type" that is not a string makes `cast` throw; modelled as `none` as well (simplification). -/
def outputOptions (frequencies intervals : OptVal) (opts : List (String × OptVal)) :
    Option (String × List (String × OptVal)) :=
  match mapFind opts "type" with
  | some (.str ty) =>
    let o1 := (mapEmplace opts "frequencies" frequencies).1
    let o2 := (mapEmplace o1 "intervals" intervals).1
    some (ty, o2)
  | _ => none

/-- `MultipleOutputs(factory, opts)`, /repo/include/fub/output/MultipleOutputs.hpp:42-60: the list of members. -/
def multiFromOptions {F O : Type} (apply : F → List (String × OptVal) → O) (m : List (String × F))
    (frequencies intervals : OptVal) (outputs : List (List (String × OptVal))) : List (Option O) :=
  outputs.filterMap (fun opts => (outputOptions frequencies intervals opts).map
    (fun p => makeOutput apply m p.1 p.2))

end Fub
