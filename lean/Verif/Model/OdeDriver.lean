import Mathlib.Algebra.Order.Field.Basic

/-!
# The driver of the ODE solver and the assignment of reactors

Model of `RadauSolver::integrate`, `/repo/src/ode_solver/RadauSolver.cpp:140-258`, of
`RadauSolver::clone`, `/repo/include/fub/ode_solver/RadauSolver.hpp:73-75`, and of the copy
constructor and the assignment operators of the reactor,
`/repo/src/equations/ideal_gas_mix/FlameMasterReactor.cpp:345-375`. The Fortran kernel
is a parameter.
-/

namespace Fub

/-- What the kernel gets as its opaque argument `IPAR`: the address of `user_data`
(`/repo/src/ode_solver/RadauSolver.cpp:192`), or the address of the function object (`/repo/src/ode_solver/RadauSolver.cpp:222`, `/repo/src/ode_solver/RadauSolver.cpp:235`), which the
callbacks cast to the type of `user_data` all the same (`/repo/src/ode_solver/RadauSolver.cpp:152`, `164`, `173`). -/
inductive Ipar
  | userData
  | systemAddress
  deriving DecidableEq

/-- The kernel (`call_radau`, `/repo/src/ode_solver/RadauSolver.cpp:73-129`): from the opaque argument, start time, end time and
vector to the return code and the vector it leaves; `none` if it runs into undefined behaviour,
which is what happens when a callback follows a pointer of the wrong type. -/
abbrev RadauKernel (K Y : Type*) := Ipar → K → K → Y → Option (ℤ × Y)

/-- The exceptions, `/repo/include/fub/ode_solver/RadauSolver.hpp:28-55` and `/repo/src/ode_solver/RadauSolver.cpp:254-257`. -/
inductive RadauError
  | inputIsNotConsistent
  | largerNMaxIsNeeded
  | stepSizeBecomesTooSmall
  | matrixIsRepeatedlySingular
  | rhsEvaluatesToNaN
  | unknownCode
  deriving DecidableEq

/-- Outcome of a call: it returns, throws, or is undefined. The vector is an in-out argument and is
changed also when an exception is thrown. Serves the model of /repo/src/ode_solver/RadauSolver.cpp:220-249. -/
inductive RadauOutcome (Y : Type*)
  | returned (y : Y)
  | thrown (e : RadauError) (y : Y)
  | undefined
  deriving DecidableEq

variable {K Y : Type*} [Field K]

/-- The retry with two halves after the return code -3, `/repo/src/ode_solver/RadauSolver.cpp:220-249`. -/
def radauRetry (kernel : RadauKernel K Y) (t0 t : K) (y : Y) : RadauOutcome Y :=
  match kernel .systemAddress t0 (t / 2) y with
  | none => .undefined
  | some (idid, y1) =>
    if idid > 0 then
      match kernel .systemAddress t0 (t / 2) y1 with
      | none => .undefined
      | some (idid2, y2) =>
        if idid2 > 0 then .returned y2 else .thrown .stepSizeBecomesTooSmall y2
    else .thrown .stepSizeBecomesTooSmall y1

/-- `RadauSolver::integrate(system, y0, t0, dt, ...)`, `/repo/src/ode_solver/RadauSolver.cpp:140-258`. -/
def radauIntegrate (kernel : RadauKernel K Y) (t0 dt : K) (y : Y) : RadauOutcome Y :=
  let t := t0 + dt
  match kernel .userData t0 t y with
  | none => .undefined
  | some (idid, y1) =>
    if idid = 1 ∨ idid = 2 then .returned y1
    else if idid = -1 then .thrown .inputIsNotConsistent y1
    else if idid = -2 then .thrown .largerNMaxIsNeeded y1
    else if idid = -3 then radauRetry kernel t0 t y1
    else if idid = -4 then .thrown .matrixIsRepeatedlySingular y1
    else if idid = -42 then .thrown .rhsEvaluatesToNaN y1
    else .thrown .unknownCode y1

/-- The public parameters of the solver, `/repo/include/fub/ode_solver/RadauSolver.hpp:59-65`. -/
structure RadauParams (K : Type*) where
  relativeTolerance : K
  absoluteTolerance : K
  initialStep : K
  jacobianThreshold : K
  deriving DecidableEq

/-- The default values, `/repo/include/fub/ode_solver/RadauSolver.hpp:59-65`. -/
def radauDefaults : RadauParams K :=
  ⟨1 / 10 ^ 12, 1 / 10 ^ 13, 1 / 10 ^ 6, 1 / 100⟩

/-- `RadauSolver::clone`, `/repo/include/fub/ode_solver/RadauSolver.hpp:73-75`. -/
def radauClone (_ : RadauParams K) : RadauParams K := radauDefaults

/-- A reactor as its members, `/repo/include/fub/equations/ideal_gas_mix/FlameMasterReactor.hpp:58-251`: the mechanism, the scalar state, the array state and the
parameters of the solver. -/
structure ReactorObject (M Sc Ar K : Type*) where
  mechanism : M
  scalar : Sc
  array : Ar
  solver : RadauParams K

variable {M Sc Ar : Type*}

/-- The copy constructor, `/repo/src/equations/ideal_gas_mix/FlameMasterReactor.cpp:345-351`. -/
def reactorCopy (r : ReactorObject M Sc Ar K) : ReactorObject M Sc Ar K :=
  { r with solver := radauClone r.solver }

/-- The move constructor, `/repo/src/equations/ideal_gas_mix/FlameMasterReactor.cpp:353-359`. -/
def reactorMove (r : ReactorObject M Sc Ar K) : ReactorObject M Sc Ar K := r

/-- The move assignment `a = std::move(b)`, `/repo/src/equations/ideal_gas_mix/FlameMasterReactor.cpp:361-369`. -/
def reactorMoveAssign (a b : ReactorObject M Sc Ar K) : ReactorObject M Sc Ar K :=
  { a with mechanism := b.mechanism, scalar := b.scalar, solver := b.solver }

/-- The copy assignment `a = b`, `/repo/src/equations/ideal_gas_mix/FlameMasterReactor.cpp:371-375`. -/
def reactorAssign (a b : ReactorObject M Sc Ar K) : ReactorObject M Sc Ar K :=
  reactorMoveAssign a (reactorCopy b)

/-- The array state as one lane: temperature, the temperature of the tables and the enthalpy of one
species. Serves the model of /repo/src/equations/ideal_gas_mix/FlameMasterReactor.cpp:79-88. -/
structure LaneTables (K : Type*) where
  temperature : K
  thermoTemp : K
  enthalpy : K
  deriving DecidableEq

/-- `SetTemperatureArray` in one lane, `/repo/src/equations/ideal_gas_mix/FlameMasterReactor.cpp:79-88` and `/repo/src/equations/ideal_gas_mix/FlameMasterReactor.cpp:567-570`: the tables are not read when the temperature
is that of the tables. The mechanism is its table of enthalpies. -/
def setLaneTemperature [DecidableEq K] (r : ReactorObject (K → K) Sc (LaneTables K) K) (T : K) :
    ReactorObject (K → K) Sc (LaneTables K) K :=
  if r.array.thermoTemp = T then { r with array := { r.array with temperature := T } }
  else { r with array := ⟨T, T, r.mechanism T⟩ }

end Fub
