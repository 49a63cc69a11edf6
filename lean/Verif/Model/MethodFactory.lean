import Verif.Model.Options
import Verif.Model.Limiter
import Verif.Model.ControlOutput

/-!
# Model of the choice of a flux method by program options

Sources: `/repo/include/fub/AMReX/FluxMethodFactory.hpp`, `/repo/include/fub/AMReX/cutcell/FluxMethodFactory.hpp`.

Simplifications: the C++ types that the factories choose between are terms; exceptions are values of `FactoryErr`; the log messages are left out. The conversion of a
Python value to a function (`pybind11::function`) is a parameter.
-/

namespace Fub

/-- The limiters. Serves the model of /repo/include/fub/AMReX/FluxMethodFactory.hpp:136-137. -/
inductive LimiterTy
  | noLimiter2 | upwind | minMod | vanLeer
  deriving DecidableEq

/-- The call operator of a limiter. /repo/include/fub/flux_method/Gradient.hpp:31-59 -/
def LimiterTy.call {K : Type} [Field K] [LinearOrder K] : LimiterTy → K → K
  | .noLimiter2 => Fub.noLimiter2
  | .upwind => upwindLimiter
  | .minMod => minModLimiter
  | .vanLeer => vanLeerLimiter

/-- The Riemann solvers `HLLE`, `HLLEM` and `HLLEM_Lar`. /repo/include/fub/AMReX/FluxMethodFactory.hpp:147-150 -/
inductive SolverTy
  | hlle
  /-- `HllemMethod<Equation, larrouturou>` -/
  | hllem (larrouturou : Bool)
  deriving DecidableEq

/-- The variables that are reconstructed. Serves the model of /repo/include/fub/AMReX/FluxMethodFactory.hpp:161-177. -/
inductive VarsTy
  | conservative | primitive | characteristics
  deriving DecidableEq

/-- The gradient methods. /repo/include/fub/AMReX/FluxMethodFactory.hpp:56-82 -/
inductive GradTy
  | central (limiter : LimiterTy)
  | over (vars : VarsTy) (g : GradTy)
  deriving DecidableEq

/-- The flux methods: a Riemann solver alone, `MusclHancock2<Equation, GradientMethod, Reconstruction, BaseMethod>` and `FluxMethod<..>`.
/repo/include/fub/AMReX/FluxMethodFactory.hpp:84-97,105-117 -/
inductive MethodTy
  | solver (s : SolverTy)
  | muscl2 (grad : GradTy) (recon : VarsTy) (base : SolverTy)
  | fluxMethod (m : MethodTy)
  deriving DecidableEq

/-- `RebindLimiterTo<Limiter, GradientMethod>` for gradient methods. /repo/include/fub/AMReX/FluxMethodFactory.hpp:56-82 -/
def rebindGrad (l : LimiterTy) : GradTy → GradTy
  | .central _ => .central l
  | .over v g => .over v (rebindGrad l g)

/-- `RebindLimiterTo<Limiter, FluxMethod>`; `none`: there is no specialisation. /repo/include/fub/AMReX/FluxMethodFactory.hpp:84-97 -/
def rebindLimiterTo (l : LimiterTy) : MethodTy → Option MethodTy
  | .solver _ => none
  | .muscl2 g r b => some (.muscl2 (rebindGrad l g) r b)
  | .fluxMethod m => (rebindLimiterTo l m).map .fluxMethod

/-- `RebindBaseMethod<BaseMethod, FluxMethod>`. /repo/include/fub/AMReX/FluxMethodFactory.hpp:105-117 -/
def rebindBase (b : SolverTy) : MethodTy → Option MethodTy
  | .solver _ => none
  | .muscl2 g r _ => some (.muscl2 g r b)
  | .fluxMethod m => (rebindBase b m).map .fluxMethod

/-- `RebindLimiter<Limiter>(reconstruction, base_method, equation)`. /repo/include/fub/AMReX/FluxMethodFactory.hpp:119-125 -/
def rebindLimiter (l : LimiterTy) (m : MethodTy) (b : SolverTy) : Option MethodTy := (rebindLimiterTo l m).bind (rebindBase b)

/-- `GetBaseMethod()` of a flux method, which the cut-cell method gets as its second argument.
/repo/include/fub/AMReX/cutcell/FluxMethodFactory.hpp:116, /repo/include/fub/flux_method/MusclHancockMethod2.hpp:109 -/
def MethodTy.baseOf : MethodTy → SolverTy
  | .solver s => s
  | .muscl2 _ _ b => b
  | .fluxMethod m => m.baseOf

/-- `limiters`. /repo/include/fub/AMReX/FluxMethodFactory.hpp:141-145, the same table at /repo/include/fub/AMReX/cutcell/FluxMethodFactory.hpp:46-50 -/
def limiterTable : List (String × LimiterTy) :=
  smapOf [("NoLimiter", .noLimiter2), ("Upwind", .upwind), ("MinMod", .minMod), ("VanLeer", .vanLeer)]

/-- `base_methods`. /repo/include/fub/AMReX/FluxMethodFactory.hpp:156-159, the same table at /repo/include/fub/AMReX/cutcell/FluxMethodFactory.hpp:60-63 -/
def solverTable : List (String × SolverTy) :=
  smapOf [("HLLE", .hlle), ("HLLEM", .hllem false), ("HLLEM_Larrouturou", .hllem true)]

/-- `reconstructions`. /repo/include/fub/AMReX/FluxMethodFactory.hpp:161-190, the same table at /repo/include/fub/AMReX/cutcell/FluxMethodFactory.hpp:65-93 -/
def reconstructionTable : List (String × MethodTy) :=
  smapOf [("Conservative", .fluxMethod (.muscl2 (.over .conservative (.central .vanLeer)) .conservative (.hllem false))),
    ("Primitive", .fluxMethod (.muscl2 (.over .primitive (.central .vanLeer)) .primitive (.hllem false))),
    ("Characteristics", .fluxMethod (.muscl2 (.over .characteristics (.central .vanLeer)) .characteristics (.hllem false)))]

/-- The exceptions: `pybind11::cast_error` or the type error of `pybind11::function`, and `std::out_of_range` of `std::map::at`. Serves the model of
/repo/include/fub/AMReX/FluxMethodFactory.hpp:192-231. -/
inductive FactoryErr
  | badType (option : String)
  | unknown (option : String)
  deriving DecidableEq

/-- `map.at(key)`. /repo/include/fub/AMReX/FluxMethodFactory.hpp:229-231 -/
def smapAt {V : Type} (option : String) (m : List (String × V)) (key : List Char) : Except FactoryErr V :=
  match m.find? (fun p => p.1.toList = key) with
  | some p => .ok p.2
  | none => .error (.unknown option)

/-- `GetOptionOr(options, name, default)` for strings. /repo/include/fub/AMReX/FluxMethodFactory.hpp:192-197 -/
def stringOption {K : Type} (options : OptionMap K) (name default : String) : Except FactoryErr (List Char) :=
  match getOptionOr castString options name.toList default.toList with
  | some s => .ok s
  | none => .error (.badType name)

/-- A flux method with its time integrator: the axial ones with an area function, or the plain ones. Serves the model of
/repo/include/fub/AMReX/FluxMethodFactory.hpp:239-258. -/
structure ChosenMethod (K : Type) where
  flux : MethodTy
  /-- the area function of `AxialTimeIntegrator`; `none`: `FluxMethodAdapter` and `EulerForwardTimeIntegrator` -/
  area : Option (K → K)

/-- The lambda expression `area`. /repo/include/fub/AMReX/FluxMethodFactory.hpp:210-217 -/
def areaOption {K : Type} (castFun : PyVal K → Option (K → K)) (options : OptionMap K) : Except FactoryErr (Option (K → K)) :=
  match options "area_variation".toList with
  | some obj => match castFun obj with
    | some f => .ok (some f)
    | none => .error (.badType "area_variation")
  | none => .ok none

/-- `GetFluxMethod` for equations of rank one. `none` would be a C++ program that does not compile.
/repo/include/fub/AMReX/FluxMethodFactory.hpp:129-263 -/
def getFluxMethod {K : Type} (castFun : PyVal K → Option (K → K)) (options : OptionMap K) : Except FactoryErr (Option (ChosenMethod K)) := do
  let limiterOption ← stringOption options "limiter" "MinMod"
  let reconstructionOption ← stringOption options "reconstruction" "Characteristics"
  let baseOption ← stringOption options "base_method" "HLLEM_Larrouturou"
  let area ← areaOption castFun options
  let limiter ← smapAt "limiter" limiterTable limiterOption
  let reconstruction ← smapAt "reconstruction" reconstructionTable reconstructionOption
  let base ← smapAt "base_method" solverTable baseOption
  return (rebindLimiter limiter reconstruction base).map fun m => ⟨m, area⟩

/-- A cut-cell method: the method in the interior and the Riemann solver at the embedded boundary. Serves the model of
/repo/include/fub/AMReX/cutcell/FluxMethodFactory.hpp:117. -/
structure ChosenCutMethod where
  flux : MethodTy
  wall : SolverTy

/-- `GetCutCellMethod`. /repo/include/fub/AMReX/cutcell/FluxMethodFactory.hpp:39-123 -/
def getCutCellMethod {K : Type} (options : OptionMap K) : Except FactoryErr (Option ChosenCutMethod) := do
  let limiterOption ← stringOption options "limiter" "MinMod"
  let reconstructionOption ← stringOption options "reconstruction" "Characteristics"
  let baseOption ← stringOption options "base_method" "HLLEM_Larrouturou"
  let limiter ← smapAt "limiter" limiterTable limiterOption
  let reconstruction ← smapAt "reconstruction" reconstructionTable reconstructionOption
  let base ← smapAt "base_method" solverTable baseOption
  return (rebindLimiter limiter reconstruction base).map fun m => ⟨m, m.baseOf⟩

/-- What the templates are made of: the gradient in the given variables with a given limited difference, the reconstruction at a side of a cell (`true`: upper) and the
Riemann solvers. Serves the model of /repo/include/fub/flux_method/MusclHancockMethod2.hpp:117-121. -/
structure MethodParts (K S G R : Type) where
  grad : VarsTy → (K → K → K) → S → S → S → K → G
  recon : VarsTy → S → G → K → K → Bool → S
  solver : SolverTy → S → S → R

/-- `ComputeNumericFlux` of a method on four states; `none`: the types do not fit together. A Riemann solver alone has two states.
/repo/include/fub/flux_method/MusclHancockMethod2.hpp:134-158 -/
def MethodTy.run {K S G R : Type} [Field K] [LinearOrder K] (P : MethodParts K S G R) : MethodTy → Option (S → S → S → S → K → K → R)
  | .solver _ => none
  | .fluxMethod m => m.run P
  | .muscl2 (.over v (.central l)) r b =>
    if v = r then some fun s0 s1 s2 s3 dt dx =>
      let g0 := P.grad v (centralGradient l.call) s0 s1 s2 dx
      let g1 := P.grad v (centralGradient l.call) s1 s2 s3 dx
      P.solver b (P.recon r s1 g0 dt dx true) (P.recon r s2 g1 dt dx false)
    else none
  | .muscl2 _ _ _ => none

end Fub
