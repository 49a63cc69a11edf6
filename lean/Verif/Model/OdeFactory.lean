import Mathlib.Data.List.Perm.Basic

/-!
# The factory of ODE solvers

Model of `/repo/src/ode_solver/OdeSolverFactory.cpp` and of the objects that register the solvers during static initialisation.
-/

namespace Fub

/-- `OdeSolverType`. /repo/include/fub/ode_solver/OdeSolverFactory.hpp:32 -/
inductive OdeSolverType
  | radau
  | cvode
deriving DecidableEq

/-- Options: the member `type`, and the number of variables if the object is a `CVodeSolverOptions`.
/repo/include/fub/ode_solver/OdeSolverFactory.hpp:34-36 and /repo/include/fub/ode_solver/CVodeSolver.hpp:31-36 -/
structure OdeOptions where
  type : OdeSolverType
  nVars : Option Int
deriving DecidableEq

/-- The default argument `{}`: the first enumerator. /repo/include/fub/ode_solver/OdeSolverFactory.hpp:55 -/
def OdeOptions.default : OdeOptions := ⟨.radau, none⟩

/-- The constructor of `CVodeSolverOptions`. /repo/include/fub/ode_solver/CVodeSolver.hpp:32-33 -/
def cvodeOptions (n : Int) : OdeOptions := ⟨.cvode, some n⟩

/-- The solvers that can be made. Serves the model of /repo/src/ode_solver/OdeSolverFactory.cpp:35-39. -/
inductive MadeSolver
  | radau
  | cvode (size : Int)
deriving DecidableEq

/-- Outcome of making a solver: `std::out_of_range`, an assertion or a read behind the options object, or a solver.
Serves the model of /repo/src/ode_solver/OdeSolverFactory.cpp:35-39. -/
inductive MakeOutcome
  | outOfRange
  | undefined
  | made (s : MadeSolver)
deriving DecidableEq

/-- `SpecificFactory`. /repo/include/fub/ode_solver/OdeSolverFactory.hpp:41 -/
abbrev OdeMaker := OdeOptions → MakeOutcome

/-- The entry of RADAU. /repo/include/fub/ode_solver/RadauSolver.hpp:85-87 -/
def radauMaker : OdeMaker := fun _ => .made .radau

/-- The entry of CVode. /repo/include/fub/ode_solver/CVodeSolver.hpp:69-75 -/
def cvodeMaker : OdeMaker := fun o =>
  if o.type ≠ .cvode then .undefined
  else match o.nVars with
    | some n => .made (.cvode n)
    | none => .undefined

/-- `RegisterSpecificFactory`: `std::map::insert` leaves an entry that is there. /repo/src/ode_solver/OdeSolverFactory.cpp:30-33 -/
def registerSolver {F : Type*} (m : List (String × F)) (e : String × F) : List (String × F) :=
  if m.any (fun x => x.1 = e.1) then m else m ++ [e]

/-- The map after the registrations of the static objects in the order in which they were initialised. /repo/src/ode_solver/OdeSolverFactory.cpp:41-45 -/
def registerSolvers {F : Type*} (l : List (String × F)) : List (String × F) := l.foldl registerSolver []

/-- The entry of a name. /repo/src/ode_solver/OdeSolverFactory.cpp:38 -/
def findMaker {F : Type*} (m : List (String × F)) (name : String) : Option F := (m.find? fun x => x.1 = name).map Prod.snd

/-- `MakeSolver(name, options)`. /repo/src/ode_solver/OdeSolverFactory.cpp:35-39 -/
def makeSolver (m : List (String × OdeMaker)) (name : String) (o : OdeOptions) : MakeOutcome :=
  match findMaker m name with
  | none => .outOfRange
  | some f => f o

end Fub
