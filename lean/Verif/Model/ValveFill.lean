import Verif.Model.IsentropicBoundary
import Verif.Model.Boundary
import Verif.Model.Average
import Verif.Model.Massflow
import Verif.Model.Valve

/-!
# What the mass flow boundary and the pressure valve write into the ghost cells

Model of `/repo/src/AMReX/boundary_condition/MassflowBoundary.cpp` and of the part of `/repo/src/AMReX/boundary_condition/PressureValveBoundary.cpp`
that writes states. Numbers are real. The reactor of the equation is a parameter `s`; the code goes on with the reactor that the last cell left
behind, `mixture_from_reactor` shows that the states which are written do not depend on it. Log messages are left out.
-/

namespace Fub
variable {n d : ℕ} {S : Type*} [Fintype S]

/-- `ComputeBoundaryState`. /repo/src/AMReX/boundary_condition/MassflowBoundary.cpp:76-131 -/
noncomputable def massflowGhost (m : Mechanism S ℝ) (massflow area : ℝ) (dir : Fin d) (side : Int) (q : IgmComplete d S) (s : ReactorState S ℝ) : IgmComplete d S :=
  let f := massflow / area / (q.density * q.speedOfSound)
  let u := q.momentum dir / q.density / q.speedOfSound
  let v := if side = 0 then massflowVelocity0 f u else massflowVelocity1 f u
  igmCompleteFromReactor m (((s.setDensity q.density).setMassFractions m q.species).setTemperature m q.temperature)
    (fun i => if i = dir then v * q.speedOfSound else 0)

/-- `AverageState` for the conservative variables of the mixture; the other variables are recomputed afterwards. /repo/include/fub/AMReX/AverageState.hpp:56-81 -/
noncomputable def igmAverage (data : Index n → IgmCons d S) (box : IndexBox n) (ranks : List (List (IndexBox n))) : IgmCons d S :=
  { density := averageState (fun i => (data i).density) box ranks
    momentum := fun k => averageState (fun i => (data i).momentum k) box ranks
    energy := averageState (fun i => (data i).energy) box ranks
    species := fun k => averageState (fun i => (data i).species k) box ranks }

/-- The options of `MassflowBoundary`. /repo/include/fub/AMReX/boundary_condition/MassflowBoundary.hpp:34-52 -/
structure MassflowOptions (n : ℕ) where
  box : IndexBox n
  massflow : ℝ
  area : ℝ
  dir : Fin n
  side : Int

/-- `FillBoundary(mf, geom, state)` on one patch. /repo/src/AMReX/boundary_condition/MassflowBoundary.cpp:172-203 -/
def massflowStore {α : Type*} (g : Geom n) (ngrow : Int) (dir : Fin n) (side : Int) (state : α) (p : PatchTiles n) (data : Index n → α) : Option (Index n → α) :=
  runCopies p.fab (fun _ => state) (ghostCopies p.tiles (sideBoxes (boxDiff (g.grown ngrow) g.domain) g.domain dir side ngrow) fun _ i => i) data

/-- `MassflowBoundary::FillBoundary(mf, grid, level)` on one patch: `level` are the data of the `MultiFab` before the call and `ranks` the tiles of its
patches on every process. `none` is an exception of the temperature iteration or an access outside of the patch.
/repo/src/AMReX/boundary_condition/MassflowBoundary.cpp:133-170 -/
noncomputable def massflowFill (m : Mechanism S ℝ) (s : ReactorState S ℝ) (o : MassflowOptions n) (g : Geom n) (ngrow : Int) (level : Index n → IgmComplete n S)
    (ranks : List (List (IndexBox n))) (p : PatchTiles n) (data : Index n → IgmComplete n S) : Option (Index n → IgmComplete n S) :=
  let mean := igmAverage (fun i => (level i).toIgmCons) o.box ranks
  if 0 < mean.density then
    (igmCompleteFromCons m s mean).bind fun r => massflowStore g ngrow o.dir o.side (massflowGhost m o.massflow o.area o.dir o.side r.2 r.1) p data
  else some data

/-! ### The pressure valve -/

/-- The state that replaces the state of a ghost cell if the valve is open for air; `air` are the mole fractions of the string.
The version of `SetMoleFractions` for strings stores the fractions of the string, divided by their sum, and goes on as the other version.
/repo/src/AMReX/boundary_condition/PressureValveBoundary.cpp:229-241 -/
noncomputable def valveAir (m : Mechanism S ℝ) (air : S → ℝ) (s : ReactorState S ℝ) (q : IgmComplete d S) : IgmComplete d S :=
  let s1 := igmSetReactor m q s
  let s2 := (((s1.setDensity 1).setMoleFractions m air).setTemperature m 300).setPressure m q.pressure
  igmCompleteFromReactor m s2 (igmVelocity q.toIgmCons)

/-- The state that replaces the state of a ghost cell if the valve is open for fuel. /repo/src/AMReX/boundary_condition/PressureValveBoundary.cpp:261-277 -/
noncomputable def valveFuel [DecidableEq S] (m : Mechanism S ℝ) (h2 o2 : S) (ratio : ℝ) (s : ReactorState S ℝ) (q : IgmComplete d S) : IgmComplete d S :=
  let r := (igmSetReactor m q s).getMoleFractions m
  let moles := Function.update r.2 h2 (2 * ratio * r.2 o2)
  let s2 := (((r.1.setDensity 1).setMoleFractions m moles).setTemperature m q.temperature).setPressure m q.pressure
  igmCompleteFromReactor m s2 (igmVelocity q.toIgmCons)

open Classical in
/-- The loops over the ghost cells: the assertions, then the new state. `none` is a failed assertion or an access outside of the patch.
/repo/src/AMReX/boundary_condition/PressureValveBoundary.cpp:215-245,247-281 -/
noncomputable def replaceCells (fab : IndexBox n) (f : IgmComplete d S → IgmComplete d S) : List (Index n) → (Index n → IgmComplete d S) → Option (Index n → IgmComplete d S)
  | [], data => some data
  | x :: xs, data =>
    if fab.contains x = true ∧ 0 < (data x).density ∧ 0 < (data x).pressure ∧ 0 < (data x).temperature then
      replaceCells fab f xs (Function.update data x (f (data x)))
    else none

/-- The ghost cells that the loops visit, in their order: those of the lower boundary. /repo/src/AMReX/boundary_condition/PressureValveBoundary.cpp:217-228 -/
def valveCells (g : Geom 1) (ngrow : Int) (p : PatchTiles 1) : List (Index 1) :=
  (ghostCopies p.tiles (sideBoxes (boxDiff (g.grown ngrow) g.domain) g.domain 0 0 ngrow) fun _ i => i).map Prod.fst

/-- The parameters of `PressureValveBoundary` and of its equation. /repo/include/fub/AMReX/boundary_condition/PressureValveBoundary.hpp:34-54 -/
structure PressureValveParams (S : Type*) where
  valve : ValveOptions ℝ
  massflow : MassflowOptions 1
  equivalence : ℝ
  air : S → ℝ
  h2 : S
  o2 : S

/-- `PressureValveBoundary::FillBoundary(mf, grid, level)` on one patch of a level with a boundary: the valve afterwards and the data. `time` is the time point
of the hierarchy and `pressure` its mean pressure. /repo/src/AMReX/boundary_condition/PressureValveBoundary.cpp:187-283 -/
noncomputable def pressureValveFill [DecidableEq S] (m : Mechanism S ℝ) (s : ReactorState S ℝ) (o : PressureValveParams S) (g : Geom 1) (ngrow : Int)
    (level : Index 1 → IgmComplete 1 S) (ranks : List (List (IndexBox 1))) (p : PatchTiles 1) (v : Valve ℝ) (time pressure : ℝ)
    (data : Index 1 → IgmComplete 1 S) : Valve ℝ × Option (Index 1 → IgmComplete 1 S) :=
  if boxDiff (g.grown ngrow) g.domain = [] then (v, some data)
  else
    let v' := changeState o.valve v time pressure
    (v', match v'.state with
      | .closed => reflectiveFill g ngrow 0 0 (igmReflect fun _ => 1) p data
      | .openAir => (massflowFill m s o.massflow g ngrow level ranks p data).bind fun data' =>
          replaceCells p.fab (valveAir m o.air s) (valveCells g ngrow p) data'
      | .openFuel => (massflowFill m s o.massflow g ngrow level ranks p data).bind fun data' =>
          replaceCells p.fab (valveFuel m o.h2 o.o2 o.equivalence s) (valveCells g ngrow p) data')

end Fub
