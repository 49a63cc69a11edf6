import Verif.Model.GasMix

/-!
The diffusion source term of a tube. Source: `/repo/include/fub/AMReX/DiffusionSourceTerm.hpp`.

Simplifications: exact real numbers instead of `double`; an `Array1d` is represented by one of its lanes, the chunked row loop is the one of C16; one patch, whose valid cells are `0, ..., n - 1`.
-/

namespace Fub
open Finset
variable {s t : ℕ}

/-- `DiffusionSourceTermOptions`. /repo/include/fub/AMReX/DiffusionSourceTerm.hpp:37-46 -/
structure DiffOptions where
  mul : ℝ
  reynolds : ℝ
  schmidt : ℝ
  prandtl : ℝ

/-- The default options. /repo/include/fub/AMReX/DiffusionSourceTerm.hpp:42-45 -/
noncomputable def DiffOptions.default : DiffOptions := ⟨3, 1 / 0.003, 1, 1⟩

/-- `DiffusionSourceTerm::Constants`, the members that are used. /repo/include/fub/AMReX/DiffusionSourceTerm.hpp:94-116 -/
structure DiffConstants where
  fourThirdMu : ℝ
  muPr : ℝ
  muSc : ℝ

/-- The constructor of `Constants`. /repo/include/fub/AMReX/DiffusionSourceTerm.hpp:95-105 -/
noncomputable def diffConstants (o : DiffOptions) : DiffConstants :=
  let schmidtInv := 1 / o.schmidt
  let reynoldsInv := 1 / o.reynolds
  let prandtlInv := 1 / o.prandtl
  { fourThirdMu := 4 / 3 * o.mul * reynoldsInv
    muPr := o.mul * reynoldsInv * prandtlInv
    muSc := o.mul * reynoldsInv * schmidtInv }

/-- `DiffusionSourceTerm` without its work arrays. /repo/include/fub/AMReX/DiffusionSourceTerm.hpp:48-120 -/
structure DiffTerm where
  options : DiffOptions
  eq : MixEq
  constants : DiffConstants

/-- The constructor; `constants_` is initialised from `options_`. /repo/include/fub/AMReX/DiffusionSourceTerm.hpp:116,122-125 -/
noncomputable def DiffTerm.new (eq : MixEq) (o : DiffOptions) : DiffTerm := ⟨o, eq, diffConstants o⟩

/-- The copy constructor: `options_` is not mentioned, therefore default initialised. /repo/include/fub/AMReX/DiffusionSourceTerm.hpp:61-62,86,116 -/
noncomputable def DiffTerm.copy (other : DiffTerm) : DiffTerm := ⟨.default, other.eq, diffConstants .default⟩

/-- The copy assignment: only the equation is assigned. /repo/include/fub/AMReX/DiffusionSourceTerm.hpp:65-68 -/
def DiffTerm.assign (self other : DiffTerm) : DiffTerm := { self with eq := other.eq }

/-- `Enthalpy`. /repo/include/fub/AMReX/DiffusionSourceTerm.hpp:244-251 -/
noncomputable def diffEnthalpy (eq : MixEq) (q : MixCons 0 s t) (rhoInv : ℝ) : ℝ :=
  let rhou := q.momentum 0
  let rhoe := q.energy
  (eq.gamma * rhoe - eq.gamma * (1 / 2) * rhou * rhou * rhoInv) * rhoInv

/-- `ComputeDiffusionFlux`. The fluxes of density and passive scalars are never assigned and keep the zeros of the constructor.
/repo/include/fub/AMReX/DiffusionSourceTerm.hpp:196,253-277 -/
noncomputable def diffFlux (T : DiffTerm) (l r : MixCons 0 s t) (dxInv : ℝ) : MixCons 0 s t :=
  let rhoInvL := 1 / l.density
  let rhoInvR := 1 / r.density
  let uL := l.momentum 0 * rhoInvL
  let uR := r.momentum 0 * rhoInvR
  let u := 1 / 2 * (uL + uR)
  let dudx := (uR - uL) * dxInv
  let hL := diffEnthalpy T.eq l rhoInvL
  let hR := diffEnthalpy T.eq r rhoInvR
  let dhdx := (hR - hL) * dxInv
  { density := 0
    momentum := fun _ => -T.constants.fourThirdMu * dudx
    energy := -(T.constants.fourThirdMu * u * dudx + T.constants.muPr * dhdx)
    species := fun i =>
      let YL := l.species i * rhoInvL
      let YR := r.species i * rhoInvR
      let dYdx := (YR - YL) * dxInv
      (-T.constants.muSc) * dYdx
    scalars := fun _ => 0 }

/-- The update of one cell by the `ForwardIntegrator` (C15). /repo/src/HyperbolicPatchIntegrator.cpp:51 -/
noncomputable def mixUpdate (dtdx : ℝ) (u fL fR : MixCons 0 s t) : MixCons 0 s t :=
  { density := u.density + dtdx * (fL.density - fR.density)
    momentum := fun i => u.momentum i + dtdx * (fL.momentum i - fR.momentum i)
    energy := u.energy + dtdx * (fL.energy - fR.energy)
    species := fun i => u.species i + dtdx * (fL.species i - fR.species i)
    scalars := fun i => u.scalars i + dtdx * (fL.scalars i - fR.scalars i) }

/-- The half time step state, computed in all cells with `g - 1` ghost cells; `CompleteFromCons` does not change the conservative variables (C62).
/repo/include/fub/AMReX/DiffusionSourceTerm.hpp:134-155 -/
noncomputable def diffHalf (T : DiffTerm) (g n : ℤ) (dt dx : ℝ) (u : ℤ → MixCons 0 s t) : ℤ → MixCons 0 s t :=
  let f : ℤ → MixCons 0 s t := fun i => diffFlux T (u (i - 1)) (u i) (1 / dx)
  fun c => if -(g - 1) ≤ c ∧ c < n + (g - 1) then mixUpdate (1 / 2 * dt / dx) (u c) (f c) (f (c + 1)) else u c

/-- `AdvanceLevel` on a patch with `n` cells and `g` ghost cells on each side, before the last application of the boundary condition; `bc` is the application of the boundary condition to the half time
step state. /repo/include/fub/AMReX/DiffusionSourceTerm.hpp:127-188 -/
noncomputable def diffStep (T : DiffTerm) (bc : (ℤ → MixCons 0 s t) → ℤ → MixCons 0 s t) (g n : ℤ) (dt dx : ℝ) (u : ℤ → MixCons 0 s t) : ℤ → MixCons 0 s t :=
  let aux := bc (diffHalf T g n dt dx u)
  let f : ℤ → MixCons 0 s t := fun i => diffFlux T (aux (i - 1)) (aux i) (1 / dx)
  fun c => if -(g - 2) ≤ c ∧ c < n + (g - 2) then mixUpdate (dt / dx) (u c) (f c) (f (c + 1)) else u c

/-- A sequence of calls of `AdvanceLevel`, each of which ends with the boundary condition. /repo/include/fub/AMReX/DiffusionSourceTerm.hpp:127-188 -/
noncomputable def diffRun (T : DiffTerm) (bc : (ℤ → MixCons 0 s t) → ℤ → MixCons 0 s t) (g n : ℤ) (dx : ℝ) : List ℝ → (ℤ → MixCons 0 s t) → ℤ → MixCons 0 s t
  | [], u => u
  | dt :: rest, u => diffRun T bc g n dx rest (bc (diffStep T bc g n dt dx u))

/-- `ComputeStableDt` returns the largest floating point number, which is a parameter here. /repo/include/fub/AMReX/DiffusionSourceTerm.hpp:235-242 -/
def diffStableDt (maxDouble : ℝ) : ℝ := maxDouble

end Fub
