import Verif.Model.MethodFactory

/-!
# The meaning of the options of a flux method
-/

namespace Fub
variable {K S G R : Type}

/-- The limiters by their documented names, as functions of the ratio of the slopes. -/
def namedLimiter [Field K] [LinearOrder K] (name : String) : Option (K → K) :=
  if name = "NoLimiter" then some fun _ => 1
  else if name = "Upwind" then some fun _ => 0
  else if name = "MinMod" then some fun R => min (2 / (1 + R)) (2 * R / (1 + R))
  else if name = "VanLeer" then some fun R => 4 * R / (1 + R) ^ 2
  else none

/-- The variables by their names. -/
def namedVariables (name : String) : Option VarsTy :=
  if name = "Conservative" then some .conservative
  else if name = "Primitive" then some .primitive
  else if name = "Characteristics" then some .characteristics
  else none

/-- The Riemann solvers by their names. -/
def namedSolver (name : String) : Option SolverTy :=
  if name = "HLLE" then some .hlle
  else if name = "HLLEM" then some (.hllem false)
  else if name = "HLLEM_Larrouturou" then some (.hllem true)
  else none

/-- The limited slope: zero at extrema, otherwise the mean of the slopes times the limiter at the ratio of the slopes. -/
def limitedSlope [Field K] [LinearOrder K] (limiter : K → K) (sL sR : K) : K := if sL * sR ≤ 0 then 0 else limiter (sR / sL) * ((sL + sR) / 2)

/-- The second order flux: slopes in the cells next to the face in the given variables, states at the face after half a time step, Riemann solver. -/
def secondOrderFlux [Field K] [LinearOrder K] (P : MethodParts K S G R) (limiter : K → K) (vars : VarsTy) (solver : SolverTy) (s0 s1 s2 s3 : S) (dt dx : K) : R :=
  P.solver solver (P.recon vars s1 (P.grad vars (limitedSlope limiter) s0 s1 s2 dx) dt dx true)
    (P.recon vars s2 (P.grad vars (limitedSlope limiter) s1 s2 s3 dx) dt dx false)

/-- The text of an option is `name`: it is given as this text, or it is not given and `name` is its default. -/
def OptionIs (options : OptionMap K) (option default name : String) : Prop :=
  options option.toList = some (.str name.toList) ∨ (options option.toList = none ∧ name = default)

end Fub
