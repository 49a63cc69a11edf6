import Verif.Model.Subcycle
import Verif.Model.RunLoop

/-!
# Model of the clocks of the AMReX integrator context, of regridding and of copying

Source: `/repo/src/AMReX/IntegratorContext.cpp`, `/repo/src/AMReX/GriddingAlgorithm.cpp`, `/repo/src/AMReX/PatchHierarchy.cpp`,
`/repo/include/fub/AMReX/IntegratorContext.hpp`, `/repo/include/fub/AMReX/PatchHierarchy.hpp`.

Simplifications: exact time; the grid data of a level is one value of an abstract type `G` (ghost cells, fluxes and flux
registers are not part of it); which levels are remade, created or removed by a regrid is decided by AMReX and the tagging
criteria, and modelled by an arbitrary script of decisions; reading an out-of-range level leaves the state unchanged here, except in
`getTimePoint` and `getCycles`, where it is the outcome `none`.
-/

namespace Fub

/-- Clocks and scratch data of one level in the integrator context, `IntegratorContext::LevelData`,
/repo/include/fub/AMReX/IntegratorContext.hpp:283-308. -/
structure LevelClock (K G : Type) where
  /-- `time_point` -/
  time : K
  /-- `regrid_time_point` -/
  regridTime : K
  /-- `cycles` -/
  cycles : Int
  /-- `scratch` -/
  scratch : G
deriving DecidableEq

/-- `PatchLevel`, /repo/include/fub/AMReX/PatchHierarchy.hpp:142-150. -/
structure HierLevel (K G : Type) where
  /-- `time_point` -/
  time : K
  /-- `cycles`; default member initialiser is 0 -/
  cycles : Int
  /-- `data` -/
  data : G
deriving DecidableEq

/-- What a regrid does with one level. Serves the model of /repo/include/fub/AMReX/IntegratorContext.hpp:277-314. -/
inductive RegridAct (G : Type) where
  /-- the box array does not change; AMReX does not call back -/
  | same
  /-- `RemakeLevel` with this data -/
  | remake (g : G)
  /-- `MakeNewLevelFromCoarse` with this data -/
  | create (g : G)
  /-- this and all finer levels are removed by `ClearLevel` -/
  | clear
deriving DecidableEq

/-- `IntegratorContext` (/repo/include/fub/AMReX/IntegratorContext.hpp:277-314) together with the patch hierarchy it owns through
`gridding_`. `script` lists what the future regrids will do; an empty script means that they find unchanged grids. -/
structure Ctx (K G Opt Meth Cb : Type) where
  /-- `options_` -/
  options : Opt
  /-- `gridding_->GetPatchHierarchy()` -/
  hier : List (HierLevel K G)
  /-- `GetMaxNumberOfLevels()` -/
  maxLevels : Nat
  /-- `data_` -/
  data : List (LevelClock K G)
  /-- `method_` -/
  method : Meth
  /-- `post_advance_hierarchy_feedback_` -/
  feedback : Option Cb
  /-- `user_compute_stable_dt_` -/
  userStableDt : Option Cb
  /-- `count_per_level` -/
  countPerLevel : Bool
  /-- decisions of the future regrids -/
  script : List (List (RegridAct G))
deriving DecidableEq

section
variable {K G Opt Meth Cb : Type}

/-- `IntegratorContext::GetTimePoint(level)`, /repo/src/AMReX/IntegratorContext.cpp:256-259; out of range is undefined. -/
def Ctx.getTimePoint (c : Ctx K G Opt Meth Cb) (l : Nat) : Option K := (c.data[l]?).map (·.time)

/-- `IntegratorContext::GetCycles(level)`, /repo/src/AMReX/IntegratorContext.cpp:261-264; out of range is undefined. -/
def Ctx.getCycles (c : Ctx K G Opt Meth Cb) (l : Nat) : Option Int := (c.data[l]?).map (·.cycles)

/-- Copy constructor and copy assignment, /repo/src/AMReX/IntegratorContext.cpp:174-185: the hierarchy is copied deeply,
`data_` is empty, and the callbacks and `count_per_level` are default initialised. -/
def Ctx.copy (c : Ctx K G Opt Meth Cb) : Ctx K G Opt Meth Cb :=
  { c with
    data := [], feedback := none, userStableDt := none, countPerLevel := false }

/-- The level data that `ResetHierarchyConfiguration(first_level)` leaves behind for level number `i`:
/repo/src/AMReX/IntegratorContext.cpp:292-345. Levels below `first` keep their scratch. -/
def resetLevel (old : List (LevelClock K G)) (first i : Nat) (h : HierLevel K G) : LevelClock K G :=
  { time := h.time, regridTime := h.time, cycles := h.cycles,
    scratch := if i < first then (match old[i]? with | some d => d.scratch | none => h.data) else h.data }

/-- `IntegratorContext::ResetHierarchyConfiguration(first_level)`, /repo/src/AMReX/IntegratorContext.cpp:292-345. -/
def Ctx.reset (c : Ctx K G Opt Meth Cb) (first : Nat) : Ctx K G Opt Meth Cb :=
  { c with
    data := c.hier.mapIdx (resetLevel c.data first) }

/-- What AMReX' `regrid` and the callbacks `RemakeLevel` (lines 240-251), `MakeNewLevelFromCoarse` (208-238) and `ClearLevel`
(253-256) of /repo/src/AMReX/GriddingAlgorithm.cpp:208-256 do to the levels finer than the regridded one; `t` is the time of the
regridded level. A remade level is a new `PatchLevel` with time `t` and default cycles. -/
def applyRegrid (t : K) : List (RegridAct G) → List (HierLevel K G) → List (HierLevel K G)
  | [], hs => hs
  | .same :: as, h :: hs => h :: applyRegrid t as hs
  | .remake g :: as, _ :: hs => ⟨t, 0, g⟩ :: applyRegrid t as hs
  | .create g :: as, [] => ⟨t, 0, g⟩ :: applyRegrid t as []
  | .create g :: as, h :: hs => ⟨h.time, h.cycles, g⟩ :: applyRegrid t as hs
  | .clear :: _, _ => []
  | _, [] => []

/-- Number of the first changed level, `max_level + 1` if none, /repo/src/AMReX/GriddingAlgorithm.cpp:95-110; `l` is the number of the level that
the head of the list decides about. -/
def firstChanged (maxLevels : Nat) : Nat → List (RegridAct G) → Nat
  | _, [] => maxLevels
  | l, .same :: as => firstChanged maxLevels (l + 1) as
  | l, _ :: _ => l

/-- `GriddingAlgorithm::RegridAllFinerlevels(which_level)`, /repo/src/AMReX/GriddingAlgorithm.cpp:86-110. Returns the new
hierarchy, the remaining script and the first changed level. -/
def Ctx.regridAllFiner (c : Ctx K G Opt Meth Cb) (l : Nat) : Ctx K G Opt Meth Cb × Nat :=
  if l + 1 < c.maxLevels then
    match c.script, c.hier[l]? with
    | acts :: rest, some h =>
      ({ c with
         hier := c.hier.take (l + 1) ++ applyRegrid h.time acts (c.hier.drop (l + 1)), script := rest },
       firstChanged c.maxLevels (l + 1) acts)
    | _, _ => (c, c.maxLevels)
  else (c, c.maxLevels)

/-- `for (lvl = l; lvl < data_.size(); ++lvl) data_[lvl].regrid_time_point = data_[lvl].time_point;`,
/repo/src/AMReX/IntegratorContext.cpp:617-619. -/
def Ctx.markRegrid (c : Ctx K G Opt Meth Cb) (l : Nat) : Ctx K G Opt Meth Cb :=
  { c with
    data := c.data.mapIdx (fun i d => if l ≤ i then { d with regridTime := d.time } else d) }

/-- `IntegratorContext::PreAdvanceLevel(level, dt, subcycle)`, /repo/src/AMReX/IntegratorContext.cpp:601-627. -/
def Ctx.preAdvanceLevel [DecidableEq K] (c : Ctx K G Opt Meth Cb) (l : Nat) (sub : Nat × Nat) : Ctx K G Opt Meth Cb :=
  if sub.1 = 0 then
    match c.data[l]? with
    | none => c
    | some d =>
      if d.regridTime ≠ d.time then
        let r := c.regridAllFiner l
        let c' := r.1.markRegrid l
        if r.2 < c.maxLevels then c'.reset r.2 else c'
      else c
  else c

/-- `IntegratorContext::PostAdvanceLevel(level, dt, subcycle)`, /repo/src/AMReX/IntegratorContext.cpp:653-679. -/
def Ctx.postAdvanceLevel [Add K] (c : Ctx K G Opt Meth Cb) (l : Nat) (dt : K) (sub : Nat × Nat) : Ctx K G Opt Meth Cb :=
  match c.data[l]? with
  | none => c
  | some d =>
    let d' := { d with time := d.time + dt, cycles := d.cycles + 1 }
    { c with
      data := c.data.set l d',
      hier := if sub.1 + 1 = sub.2 then c.hier.modify l (fun h => { h with time := d'.time, cycles := d'.cycles })
              else c.hier }

/-- `IntegratorContext::PreAdvanceHierarchy()`, /repo/src/AMReX/IntegratorContext.cpp:681-690 (the second test, whether the scratch data of
level 0 has the box layout of level 0, is not modelled: level 0 never changes its layout). -/
def Ctx.preAdvanceHierarchy (c : Ctx K G Opt Meth Cb) : Ctx K G Opt Meth Cb :=
  if c.data.length ≠ c.hier.length then c.reset 0 else c

/-- `IntegratorContext::PostAdvanceHierarchy(dt)` without the feedback call, /repo/src/AMReX/IntegratorContext.cpp:692-703. -/
def Ctx.postAdvanceHierarchy (c : Ctx K G Opt Meth Cb) : Ctx K G Opt Meth Cb :=
  match c.data[0]? with
  | none => c
  | some d0 =>
    { c with
      hier := c.hier.mapIdx (fun i h =>
        { h with time := d0.time, cycles := match c.data[i]? with | some d => d.cycles | none => h.cycles }) }

/-- The level integrator that only does the bookkeeping of the context, as used by the subcycling solver; `LevelExists` is
/repo/src/AMReX/IntegratorContext.cpp:269-271. -/
def clockSys [Field K] [LinearOrder K] (ratio : Nat → Nat) : LevelSys K (Ctx K G Opt Meth Cb) where
  levelExists := fun c l => decide (l < c.hier.length)
  ratio := ratio
  stableDt := fun _ _ => 0
  pre := fun l _ sub c => c.preAdvanceLevel l sub
  reset := fun _ _ c => c
  adv := fun _ _ _ c => (c, none)
  corr := fun _ _ _ c => c
  coarsen := fun _ _ c => c
  complete := fun _ _ c => c
  copyBack := fun l c =>
    match c.data[l]? with
    | none => c
    | some d => { c with hier := c.hier.modify l (fun h => { h with data := d.scratch }) }
  fillSingle := fun _ c => c
  fillTwo := fun _ _ c => c
  post := fun l dt sub c => (c.postAdvanceLevel l dt sub, none)
  cycles := fun c => (c.getCycles 0).getD 0

end

/-- A solver with an AMReX integrator context as seen by `RunSimulation`: `advance` is the (arbitrary) hierarchy step and `est` the
(arbitrary) stable step size; the other members are those of the context. The time and cycle of the gridding algorithm are those
of level 0 of the hierarchy (/repo/include/fub/AMReX/GriddingAlgorithm.hpp:126-135, `GetTimePoint`, `GetCycles`). -/
def ctxSolver {K G Opt Meth Cb : Type} [Zero K] (est : Ctx K G Opt Meth Cb → K)
    (advance : Ctx K G Opt Meth Cb → K → Ctx K G Opt Meth Cb × Option K) : Solver K (Ctx K G Opt Meth Cb) where
  gridTime := fun c => match c.hier[0]? with | some h => h.time | none => 0
  gridCycles := fun c => match c.hier[0]? with | some h => h.cycles | none => 0
  time := fun c => c.getTimePoint 0
  cycles := fun c => c.getCycles 0
  copy := Ctx.copy
  preAdvance := Ctx.preAdvanceHierarchy
  stableDt := est
  advance := advance
  postAdvance := fun c _ => c.postAdvanceHierarchy

/-! ### Copying a patch level -/

/-- The face data of a `PatchLevel` in `dim` directions; `none` is a null pointer. An entry is the number of its memory arena and
its contents. Serves the model of /repo/src/AMReX/PatchHierarchy.cpp:73-99. -/
structure Faces (G : Type) where
  f0 : Option (Nat × G)
  f1 : Option (Nat × G)
  f2 : Option (Nat × G)
deriving DecidableEq

/-- The face part of the copy constructor of `PatchLevel`, /repo/src/AMReX/PatchHierarchy.cpp:73-99 (for `AMREX_SPACEDIM = 3`; with
`AMREX_SPACEDIM = 2` the access to `faces[2]` itself is out of range):
nothing is copied unless face 0 exists; face 2 is allocated in the arena of face 1, face 1 in the arena of face 2.
`none` is the dereference of a null pointer. -/
def Faces.copy {G : Type} (o : Faces G) : Option (Faces G) :=
  match o.f0 with
  | none => some ⟨none, none, none⟩
  | some a0 =>
    let r2 : Option (Option (Nat × G)) := match o.f2 with
      | none => some none
      | some a2 => match o.f1 with
        | none => none
        | some a1 => some (some (a1.1, a2.2))
    let r1 : Option (Option (Nat × G)) := match o.f1 with
      | none => some none
      | some a1 => match o.f2 with
        | none => none
        | some a2 => some (some (a2.1, a1.2))
    match r2, r1 with
    | some r2, some r1 => some ⟨some a0, r1, r2⟩
    | _, _ => none

/-- The face allocation in the constructor of `PatchLevel`, /repo/src/AMReX/PatchHierarchy.cpp:128-148 for dimension 1, 2, 3: all faces
are allocated in the same arena. -/
def Faces.make {G : Type} (dim arena : Nat) (g : G) : Faces G :=
  ⟨some (arena, g), if 2 ≤ dim then some (arena, g) else none, if 3 ≤ dim then some (arena, g) else none⟩

/-! ### Copying a multi block context -/

/-- The member contexts of `MultiBlockIntegratorContext2`, /repo/src/AMReX/multi_block/MultiBlockIntegratorContext2.cpp:34-55:
the copy takes the gridding algorithms of all tubes and plena and builds new contexts with the method and options of the original ones. The
number of plena is limited by the number of *tubes* (line 49). A member context is represented by its configuration `C`. -/
def multiBlockCopy {C : Type} (tubes plena : List C) : List C × List C :=
  (tubes.take (min tubes.length tubes.length), plena.take (min tubes.length plena.length))

end Fub
