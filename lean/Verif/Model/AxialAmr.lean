import Verif.Model.Amr
import Verif.Model.AxialTube

/-!
# A tube with a varying cross section on refined grids

Sources: `/repo/include/fub/AMReX/AxialTimeIntegrator.hpp`, `/repo/include/fub/AMReX/AxialFluxMethodAdapter.hpp` and the integrator context of
`Verif.Model.Amr`, `/repo/src/AMReX/IntegratorContext.cpp:451-533`.

Simplifications: as in `Verif.Model.Amr`; one conserved variable that is not the axial momentum (density, energy or a species).
-/

namespace Fub
variable {K X : Type} [Field K]

/-- The area at a face of a level: the area function at the position `LoFace`, the same function on all levels.
/repo/include/fub/AMReX/AxialTimeIntegrator.hpp:122-129 -/
def tubeArea (A : K → K) (x0 : K) (dx : Nat → Fin 1 → K) (l : Nat) (f : Int) : K := A (x0 + (f : K) * dx l 0)

/-- `AxialTimeIntegrator::UpdateConservatively(context, level, dt, dir)` on all patches of a level; `area` are the areas at the faces. The variable is the component
`false`, the momentum would be the component `true`. /repo/include/fub/AMReX/AxialTimeIntegrator.hpp:135-209 -/
def axialAmrUpdate (g : Grids 1) (dx : Nat → Fin 1 → K) (area : Nat → Int → K) (l : Nat) (dt : K) (d : Fin 1) (s : AmrState 1 K X) : AmrState 1 K X :=
  { s with
    u := fun k i => if k = l ∧ i ∈ g.cells l then
        axialCell true (dt / dx l 0) (area l) (fun _ => 0) (fun f _ => s.flux l d (fun _ => f)) (fun _ => s.u l i) (i 0) false
      else s.u k i
    log := s.log ++ [⟨l, dt, d, s.flux l d⟩] }

/-- The operations of the level integrator on one level of a tube. The registers get `context.GetFluxes(level, dir)`, which are the fluxes of the axial flux method
without areas. /repo/src/AMReX/IntegratorContext.cpp:473-500, /repo/include/fub/AMReX/AxialFluxMethodAdapter.hpp:150-177 -/
def axialDirOps (g : Grids 1) (dx : Nat → Fin 1 → K) (area : Nat → Int → K) (h : AmrHooks 1 K X) (l : Nat) : DirOps K (AmrState 1 K X) :=
  { amrDirOps g dx h l with update := fun dt d => axialAmrUpdate g dx area l dt (Fin.ofNat 1 d.toNat) }

/-- The hierarchy of a tube as seen by the subcycling solvers; coarsening and flux correction are those of the integrator context.
/repo/include/fub/AMReX/FluxMethodFactory.hpp:236-251 with /repo/src/AMReX/IntegratorContext.cpp:451-533 -/
def axialSys [LinearOrder K] (g : Grids 1) (dx : Nat → Fin 1 → K) (area : Nat → Int → K) (h : AmrHooks 1 K X)
    (M : Split2 K (SplitState (AmrState 1 K X)) (StepErr K)) : LevelSys K (AmrState 1 K X) :=
  { amrSys g dx h M with adv := fun l dt sub s => advanceNonRecursively (axialDirOps g dx area h l) M 1 l (h.cycles s) sub.1 dt s }

end Fub
