import Mathlib.Algebra.Order.Field.Basic

/-!
# Model of the pressure valves

Source: `/repo/src/AMReX/boundary_condition/PressureValveBoundary.cpp`, `/repo/include/fub/AMReX/boundary_condition/PressureValveBoundary.hpp`,
`/repo/include/fub/AMReX/boundary_condition/GenericPressureValveBoundary.hpp`.

Simplifications: time points and pressures are elements of an ordered field; the mean pressure and the time point of each evaluation are inputs; logging is
left out; what is written into the ghost cells is left to `reflectiveFill` and `constantFill`.
-/

namespace Fub
variable {K : Type*} [Field K] [LinearOrder K] [IsStrictOrderedRing K]

/-- `PressureValveState`. /repo/include/fub/AMReX/boundary_condition/PressureValveBoundary.hpp:56 -/
inductive ValveState where
  | openAir | openFuel | closed
  deriving DecidableEq

/-- `PressureValve`. /repo/include/fub/AMReX/boundary_condition/PressureValveBoundary.hpp:59-62 -/
structure Valve (K : Type*) where
  state : ValveState
  lastFuel : K

/-- The options that the state machine reads. /repo/include/fub/AMReX/boundary_condition/PressureValveBoundary.hpp:44-53 -/
structure ValveOptions (K : Type*) where
  closePressure : K
  interval : K
  offset : K

/-- The valve of a new boundary; `lowest` stands for the lowest double. /repo/include/fub/AMReX/boundary_condition/PressureValveBoundary.hpp:60-61 -/
def Valve.initial (lowest : K) : Valve K := ⟨.openAir, lowest⟩

/-- `ChangeState_`; `time` is the time point of the hierarchy and `pressure` the mean pressure.
/repo/src/AMReX/boundary_condition/PressureValveBoundary.cpp:136-175 -/
def changeState (o : ValveOptions K) (v : Valve K) (time pressure : K) : Valve K :=
  let next := if v.lastFuel < 0 then o.offset else v.lastFuel + o.interval
  match v.state with
  | .closed => { v with state := .openAir }
  | .openFuel => if o.closePressure < pressure then { v with state := .openAir } else v
  | .openAir => if next < time then ⟨.openFuel, next⟩ else v

/-- The valve after a sequence of evaluations `(time, pressure)`. Serves the model of /repo/include/fub/AMReX/boundary_condition/PressureValveBoundary.hpp:59-62. -/
def valveAfter (o : ValveOptions K) (v : Valve K) (h : List (K × K)) : Valve K := h.foldl (fun v e => changeState o v e.1 e.2) v

/-- The states of the valve before and after each evaluation. Serves the model of /repo/include/fub/AMReX/boundary_condition/PressureValveBoundary.hpp:56. -/
def valveStates (o : ValveOptions K) (v : Valve K) : List (K × K) → List ValveState
  | [] => [v.state]
  | e :: es => v.state :: valveStates o (changeState o v e.1 e.2) es

/-! ### `GenericPressureValveBoundary` -/

/-- The part of `PlenumState` that the valves read; `sec` is `SEC_Mode`. Serves the model of /repo/include/fub/AMReX/boundary_condition/GenericPressureValveBoundary.hpp:41-103. -/
structure Plenum (K : Type*) where
  pressure : K
  sec : Bool

/-- The four valves that are defined with `GenericPressureValveBoundary`.
/repo/include/fub/AMReX/boundary_condition/GenericPressureValveBoundary.hpp:195-277 -/
inductive ValveKind where
  | reducedModelDemo | klein | deflagration | switchToSec
  deriving DecidableEq

/-- A comparison `a ≤ b` of floating point numbers; `none` is a NaN. Serves the model of /repo/include/fub/AMReX/boundary_condition/GenericPressureValveBoundary.hpp:41-103. -/
def fleOpt : Option K → K → Bool
  | none, _ => false
  | some a, b => decide (a ≤ b)

/-- A comparison `a > b` of floating point numbers; `none` is a NaN. Serves the model of /repo/include/fub/AMReX/boundary_condition/GenericPressureValveBoundary.hpp:41-103. -/
def fgtOpt : Option K → K → Bool
  | none, _ => false
  | some a, b => decide (b < a)

/-- The `ChangeTOpened_*` functions. /repo/include/fub/AMReX/boundary_condition/GenericPressureValveBoundary.hpp:41-103 -/
def changeTOpened (k : ValveKind) (tOpened : Option K) (inner : Option K) (c : Plenum K) (time : K) : Option K :=
  match k with
  | .reducedModelDemo =>
    if tOpened.isNone && fleOpt inner c.pressure then some time
    else if fgtOpt inner (11 / 10 * c.pressure) then none else tOpened
  | .klein =>
    if tOpened.isNone && fleOpt inner c.pressure then some time
    else if fgtOpt inner c.pressure then none else tOpened
  | .deflagration => some time
  | .switchToSec =>
    if c.sec = false then some time
    else if tOpened.isNone && fleOpt inner c.pressure then some time
    else if fgtOpt inner c.pressure then none else tOpened

/-- The `IsBlocked` function of the kind. /repo/include/fub/AMReX/boundary_condition/GenericPressureValveBoundary.hpp:105-142,195-277 -/
def isBlocked (k : ValveKind) (inner : Option K) (c : Plenum K) : Bool :=
  match k with
  | .reducedModelDemo => fgtOpt inner c.pressure
  | .klein => fgtOpt inner c.pressure
  | .deflagration => false
  | .switchToSec => if c.sec = false then false else fgtOpt inner c.pressure

/-- What one call of `FillBoundary` does: the wall, or the inflow function with the time since the opening. Serves the model of /repo/include/fub/AMReX/boundary_condition/GenericPressureValveBoundary.hpp:306-335,337-367. -/
inductive ValveAction (K : Type*) where
  | wall
  | inflow (tDiff : K)

/-- One call of `FillBoundary`: the new `t_opened_` and what is done; `none` is the failed assertion `t_opened_`.
/repo/include/fub/AMReX/boundary_condition/GenericPressureValveBoundary.hpp:306-335,337-367 -/
def genericValveFill (k : ValveKind) (tOpened : Option K) (inner : Option K) (c : Plenum K) (time : K) : Option (Option K × ValveAction K) :=
  let t := changeTOpened k tOpened inner c time
  if isBlocked k inner c then some (t, .wall)
  else match t with
    | none => none
    | some t0 => some (t, .inflow (time - t0))

/-- An evaluation of the valve: the time, the mean pressure in the inner layer (`none` if it is a NaN) and the compressor state. Serves the model of /repo/include/fub/AMReX/boundary_condition/GenericPressureValveBoundary.hpp:195-277. -/
structure ValveEvent (K : Type*) where
  time : K
  inner : Option K
  plenum : Plenum K

/-- A sequence of calls starting with `t_opened_`; `none` if an assertion fails. Serves the model of /repo/include/fub/AMReX/boundary_condition/GenericPressureValveBoundary.hpp:306-335. -/
def genericValveRun (k : ValveKind) (tOpened : Option K) : List (ValveEvent K) → Option (Option K × List (ValveAction K))
  | [] => some (tOpened, [])
  | e :: es =>
    match genericValveFill k tOpened e.inner e.plenum e.time with
    | none => none
    | some (t, a) =>
      match genericValveRun k t es with
      | none => none
      | some (t', as) => some (t', a :: as)

/-- `t_opened_` after a history. Serves the model of /repo/include/fub/AMReX/boundary_condition/GenericPressureValveBoundary.hpp:306-335. -/
def openedAfter (k : ValveKind) (t : Option K) (h : List (ValveEvent K)) : Option K :=
  h.foldl (fun t e => changeTOpened k t e.inner e.plenum e.time) t

end Fub
