import Mathlib.Algebra.Field.Basic
import Mathlib.Data.Int.Cast.Basic
import Mathlib.Algebra.BigOperators.Group.List.Basic

/-!
# Model of counters, the counter registry and timers

Source: `/repo/include/fub/counter/*.hpp`, `/repo/src/counter/*.cpp`.

Simplifications: `long long` samples are unbounded integers; means and variances are exact numbers of a field `K` instead of `double`;
`unordered_map` is an association list and the pointer returned by `get` is represented by its key (references to elements of an
`unordered_map` stay valid); `steady_clock::now()` is an input.
-/

namespace Fub

/-- `fub::Counter`, data members at /repo/include/fub/counter/Counter.hpp:55-56. -/
structure Counter where
  name : String
  values : List Int
deriving DecidableEq, Repr

namespace Counter

/-- Constructor, /repo/src/counter/Counter.cpp:29. -/
def new (name : String) : Counter := ⟨name, []⟩

/-- `add`, /repo/src/counter/Counter.cpp:31. -/
def add (c : Counter) (v : Int) : Counter := { c with values := c.values ++ [v] }

/-- `reset`, /repo/src/counter/Counter.cpp:65. -/
def reset (c : Counter) : Counter := { c with values := [] }

/-- `get_value`, /repo/src/counter/Counter.cpp:35-37. -/
def getValue (c : Counter) : Int := c.values.foldl (· + ·) 0

/-- `get_count`, /repo/src/counter/Counter.cpp:39. -/
def getCount (c : Counter) : Nat := c.values.length

/-- `std::min_element`: keeps the current smallest and replaces it by a smaller later element. Serves the model of /repo/src/counter/Counter.cpp:41-46. -/
def minElement (x : Int) (xs : List Int) : Int := xs.foldl (fun m y => if y < m then y else m) x

/-- `std::max_element`. Serves the model of /repo/src/counter/Counter.cpp:48-53. -/
def maxElement (x : Int) (xs : List Int) : Int := xs.foldl (fun m y => if m < y then y else m) x

/-- `get_min`, /repo/src/counter/Counter.cpp:41-46. -/
def getMin (c : Counter) : Int := match c.values with
  | [] => 0
  | x :: xs => minElement x xs

/-- `get_max`, /repo/src/counter/Counter.cpp:48-53. -/
def getMax (c : Counter) : Int := match c.values with
  | [] => 0
  | x :: xs => maxElement x xs

section
variable {K : Type} [Field K]

/-- `calculate_mean`, /repo/include/fub/counter/Counter.hpp:64-71. -/
def calcMean (v : List K) : K := if v.length ≠ 0 then v.foldl (· + ·) 0 / (v.length : K) else 0

/-- `calculate_variance`, /repo/include/fub/counter/Counter.hpp:73-83. -/
def calcVariance (v : List K) : K :=
  if v.length ≠ 0 then
    let mean := calcMean v
    (List.zipWith (fun x y => (x - mean) * (y - mean)) v v).foldl (· + ·) 0 / (v.length : K)
  else 0

/-- `get_mean`, /repo/src/counter/Counter.cpp:55; the integer sum is converted to floating point. -/
def getMean (K : Type) [Field K] (c : Counter) : K :=
  if c.values.length ≠ 0 then ((c.values.foldl (· + ·) 0 : Int) : K) / (c.values.length : K) else 0

/-- `get_variance`, /repo/src/counter/Counter.cpp:57-59. -/
def getVariance (K : Type) [Field K] (c : Counter) : K :=
  if c.values.length ≠ 0 then
    let mean := c.getMean K
    (List.zipWith (fun x y : Int => ((x : K) - mean) * ((y : K) - mean)) c.values c.values).foldl (· + ·) 0 / (c.values.length : K)
  else 0

end

end Counter

/-- `fub::CounterResult` without the square root of the variance, /repo/include/fub/counter/CounterResult.hpp:12-20. -/
structure CounterResult (K : Type) where
  name : String
  count : Nat
  min : Int
  max : Int
  mean : K
  variance : K
deriving DecidableEq

/-- `Counter::gather_statistics` at the root, /repo/src/counter/Counter.cpp:67-115; `root` is the root's counter and `others`
are the counters of the other ranks, in the order the gathered values arrive. -/
def gatherStatistics {K : Type} [Field K] (root : Counter) (others : List Counter) : CounterResult K :=
  let means : List K := (root :: others).map (Counter.getMean K)
  { name := root.name, count := root.getCount,
    min := Counter.minElement root.getMin (others.map Counter.getMin)
    max := Counter.maxElement root.getMax (others.map Counter.getMax)
    mean := Counter.calcMean means, variance := Counter.calcVariance means }

/-- `fub::CounterRegistry`, /repo/include/fub/counter/CounterRegistry.hpp:44. -/
abbrev Registry := List (String × Counter)

/-- The counter stored for a name. Serves the model of /repo/src/counter/CounterRegistry.cpp:26-29. -/
def Registry.find (r : Registry) (name : String) : Option Counter := (List.find? (fun p => p.1 == name) r).map Prod.snd

/-- `CounterRegistry::get`, /repo/src/counter/CounterRegistry.cpp:26-29: `emplace` does nothing if the key exists. -/
def Registry.get (r : Registry) (name : String) : Registry :=
  match r.find name with
  | some _ => r
  | none => (name, Counter.new name) :: r

/-- A call through the pointer returned by `get(name)`. Serves the model of /repo/src/counter/CounterRegistry.cpp:26-29. -/
def Registry.modify (r : Registry) (name : String) (f : Counter → Counter) : Registry :=
  List.map (fun p => if p.1 == name then (p.1, f p.2) else p) r

/-- What users do with a registry: `get(name)`, `get(name)->add(v)`, `get(name)->reset()`. Serves the model of /repo/src/counter/CounterRegistry.cpp:26-29. -/
inductive RegOp where
  | get (name : String)
  | add (name : String) (v : Int)
  | reset (name : String)
deriving DecidableEq, Repr

/-- One call, /repo/src/counter/CounterRegistry.cpp:26-29 and /repo/src/counter/Counter.cpp:31,65. -/
def Registry.step (r : Registry) : RegOp → Registry
  | .get n => r.get n
  | .add n v => (r.get n).modify n (fun c => c.add v)
  | .reset n => (r.get n).modify n Counter.reset

/-- A history of calls on a fresh registry. Serves the model of /repo/src/counter/CounterRegistry.cpp:26-29. -/
def Registry.run (h : List RegOp) : Registry := h.foldl Registry.step []

/-- `CounterRegistry::gather_statistics` on one process, /repo/src/counter/CounterRegistry.cpp:36-45. -/
def Registry.gather {K : Type} [Field K] (r : Registry) : List (CounterResult K) := List.map (fun p => gatherStatistics p.2 []) r

/-! ## Timers -/

/-- A timer object: `counter_` and `start_time_`, /repo/include/fub/counter/Timer.hpp:47-48 (`stop_time_` is only used inside
the destructor). -/
structure TimerObj where
  counter : Option String
  start : Int
deriving DecidableEq, Repr

/-- Operations on timer objects; objects are identified by their address. Serves the model of /repo/src/counter/Timer.cpp:27-66. -/
inductive TimerOp where
  /-- `Timer{}` -/
  | default (id : Nat)
  /-- `Timer(counter)` at the given clock value -/
  | start (id : Nat) (counter : String) (now : Int)
  /-- `Timer(std::move(src))` -/
  | moveCtor (id src : Nat)
  /-- `dst = std::move(src)` -/
  | moveAssign (dst src : Nat)
  /-- end of life at the given clock value -/
  | destroy (id : Nat) (now : Int)
deriving DecidableEq, Repr

/-- A sample submitted to a counter, with the start time it was measured from. Serves the model of /repo/src/counter/Timer.cpp:27-66. -/
structure Sample where
  counter : String
  start : Int
  value : Int
deriving DecidableEq, Repr

/-- Live timer objects and the samples submitted so far (newest first). Serves the model of /repo/src/counter/Timer.cpp:27-66. -/
structure TimerState where
  objs : Nat → Option TimerObj
  samples : List Sample

/-- The initial state. Serves the model of /repo/src/counter/Timer.cpp:27-66. -/
def TimerState.init : TimerState := ⟨fun _ => none, []⟩

/-- One operation; `none` if the program is not well formed (construction on a live object, use of a dead one).
/repo/src/counter/Timer.cpp:27-66. -/
def TimerState.step (s : TimerState) : TimerOp → Option TimerState
  | .default id => match s.objs id with
    | some _ => none
    | none => some { s with objs := Function.update s.objs id (some ⟨none, 0⟩) }
  | .start id c now => match s.objs id with                                   -- 27
    | some _ => none
    | none => some { s with objs := Function.update s.objs id (some ⟨some c, now⟩) }
  | .moveCtor id src => match s.objs id, s.objs src with                      -- 29-34
    | none, some o => some { s with objs := Function.update (Function.update s.objs src (some ⟨none, 0⟩)) id (some o) }
    | _, _ => none
  | .moveAssign dst src => match s.objs dst, s.objs src with                  -- 36-43
    | some _, some o => some { s with objs := Function.update (Function.update s.objs src (some ⟨none, 0⟩)) dst (some o) }
    | _, _ => none
  | .destroy id now => match s.objs id with                                   -- 45-50, 58-66
    | none => none
    | some o =>
      let objs := Function.update s.objs id none
      match o.counter with
      | some c => some ⟨objs, ⟨c, o.start, now - o.start⟩ :: s.samples⟩
      | none => some { s with objs := objs }

/-- A history of operations. Serves the model of /repo/src/counter/Timer.cpp:27-66. -/
def TimerState.run : List TimerOp → Option TimerState := fun h => h.foldlM TimerState.step TimerState.init

end Fub
