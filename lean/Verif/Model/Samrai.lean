import Mathlib.Algebra.Field.Basic
import Mathlib.Data.List.Basic

/-!
# Model of the SAMRAI backend: integrator context, hierarchy clock and gridding

Sources: `/repo/src/SAMRAI/IntegratorContext.cpp`, `/repo/include/fub/SAMRAI/IntegratorContext.hpp`,
`/repo/src/SAMRAI/GriddingAlgorithm.cpp`, `/repo/src/SAMRAI/PatchHierarchy.cpp`.

Simplifications: the patch data of a level is a function from the data id and the element (cell or face together with the component) to a
number; all patches of the level are one array. What SAMRAI's own schedules and the numeric method compute is a parameter: only which ids
they read and which ids they write is part of the model. Copies and fills read the state before the call. MPI is not modelled.
-/

namespace Fub

/-- The data ids of a context: `data_ids` of the `DataDescription` and the two id lists of the `AuxialiaryDataDescription`.
/repo/include/fub/SAMRAI/RegisterVariables.hpp:35-39, /repo/include/fub/SAMRAI/IntegratorContext.hpp:54-58 -/
structure SamIds where
  data : List ℕ
  scratch : List ℕ
  flux : List ℕ
deriving DecidableEq, Repr

/-- Patch data of all levels: level number, data id, element. Serves the model of /repo/src/SAMRAI/IntegratorContext.cpp:234-254. -/
abbrev SamData (C K : Type) := ℕ → ℕ → C → K

/-- Everything the context delegates to SAMRAI or to the numeric method. Fields are given by their position in the id list.
/repo/src/SAMRAI/IntegratorContext.cpp:166-178, 337-360, 403-425 -/
structure SamEnv (C K : Type) where
  /-- the elements that are owned by a patch of the level, as opposed to ghost elements -/
  inside : ℕ → C → Bool
  /-- ghost values of the destination id on a level: exchange with neighbours and boundary condition -/
  ghostOne : SamData C K → ℕ → ℕ → C → K
  /-- ghost values with interpolation from the coarser level -/
  ghostTwo : SamData C K → ℕ → ℕ → C → K
  /-- `flux_method.ComputeNumericFluxes`: the new flux fields from the scratch fields -/
  fluxes : ℕ → K → ℕ → (ℕ → C → K) → ℕ → C → K
  /-- `time_integrator.UpdateConservatively`: the new scratch fields from the scratch and the flux fields -/
  update : ℕ → K → ℕ → (ℕ → C → K) → (ℕ → C → K) → ℕ → C → K
  /-- `reconstruction.CompleteFromCons`: the new scratch fields -/
  complete : ℕ → K → (ℕ → C → K) → ℕ → C → K
  /-- weighted average of the fine cell data over the coarse cell data -/
  coarsenCells : ℕ → (C → K) → (C → K) → C → K
  /-- weighted average of the fine face data over the coarse face data -/
  coarsenFaces : ℕ → (C → K) → (C → K) → C → K

/-- The member functions of the context that act on data. /repo/include/fub/SAMRAI/IntegratorContext.hpp:180-234 -/
inductive SamCall (K : Type) where
  | fillSingle (level : ℕ)
  | fillTwo (level : ℕ)
  | applyBoundary (level dir : ℕ)
  | fluxes (level : ℕ) (dt : K) (dir : ℕ)
  | update (level : ℕ) (dt : K) (dir : ℕ)
  | complete (level : ℕ) (dt : K)
  | accumulate (level : ℕ) (scale : K) (dir : ℕ)
  | correct (fine coarse : ℕ) (dt : K)
  | resetFluxes (fine coarse : ℕ)
  | coarsen (fine coarse : ℕ)
  | dataToScratch (level : ℕ)
  | scratchToData (level : ℕ)
deriving DecidableEq, Repr

section
variable {C K : Type}

/-- The registrations `registerRefine(dest, data_ids[k], dest, ...)`: one per scratch id, as pairs of destination and source. The counter
`k` starts at zero and the loop does not increment it. `none` is the access of an empty `data_ids`.
/repo/src/SAMRAI/IntegratorContext.cpp:165-173 -/
def samFillPairs (ids : SamIds) : Option (List (ℕ × ℕ)) :=
  let k := 0
  ids.scratch.mapM fun dest => (ids.data[k]?).map fun src => (dest, src)

/-- Replaces the field of one id on one level. Serves the model of /repo/src/SAMRAI/IntegratorContext.cpp:234-254. -/
def samSet (st : SamData C K) (level id : ℕ) (f : C → K) : SamData C K :=
  fun l i => if l = level ∧ i = id then f else st l i

/-- Replaces the fields of a list of ids on one level; `f` is given by position. Serves the model of
/repo/src/SAMRAI/HyperbolicTimeIntegrator.cpp:38 and /repo/include/fub/SAMRAI/FluxMethodAdapter.hpp:114-118. -/
def samSetAll (st : SamData C K) (level : ℕ) (ids : List ℕ) (f : ℕ → C → K) : SamData C K :=
  ids.zipIdx.foldl (fun s p => samSet s level p.1 (f p.2)) st

/-- The fields of a list of ids on one level by position; `GetPatchData`. /repo/include/fub/SAMRAI/ViewPatch.hpp:98-124 -/
def samFields (st : SamData C K) (level : ℕ) (ids : List ℕ) : ℕ → C → K := fun j => st level (ids.getD j 0)

/-- `fillData` of the registered pairs: owned elements are copied from the source, ghost elements get `ghost`.
/repo/src/SAMRAI/IntegratorContext.cpp:337-347 -/
def samFill (e : SamEnv C K) (ghost : SamData C K → ℕ → ℕ → C → K) (pairs : List (ℕ × ℕ)) (level : ℕ) (st : SamData C K) : SamData C K :=
  pairs.foldl (fun s p => samSet s level p.1 fun c => if e.inside level c then st level p.2 c else ghost st level p.1 c) st

/-- `ApplyBoundaryCondition(level, dir)`. /repo/src/SAMRAI/IntegratorContext.cpp:349-355 -/
def samApplyBoundary (e : SamEnv C K) (pairs : List (ℕ × ℕ)) (level : ℕ) (st : SamData C K) : SamData C K :=
  if level = 0 then samFill e e.ghostOne pairs 0 st else samFill e e.ghostTwo pairs level st

/-- The loop over a pair of id lists with `dest->copy(*src)`. /repo/src/SAMRAI/IntegratorContext.cpp:237-242, 248-253 -/
def samCopyIds (dest src : List ℕ) (level : ℕ) (st : SamData C K) : SamData C K :=
  (dest.zip src).foldl (fun s p => samSet s level p.1 (s level p.2)) st

/-- `CopyDataToScratch(level)`; both spans are `GetDataIds()`. /repo/src/SAMRAI/IntegratorContext.cpp:234-243 -/
def samDataToScratch (ids : SamIds) (level : ℕ) (st : SamData C K) : SamData C K :=
  let data := ids.data
  let scratch := ids.data
  samCopyIds scratch data level st

/-- `CopyScratchToData(level)`; both spans are `GetDataIds()`. /repo/src/SAMRAI/IntegratorContext.cpp:245-254 -/
def samScratchToData (ids : SamIds) (level : ℕ) (st : SamData C K) : SamData C K :=
  let data := ids.data
  let scratch := ids.data
  samCopyIds data scratch level st

/-- `coarsenData` for ids that are source and destination: the coarse field of each id is replaced by the average of the fine one. The coarse
level is the level below the fine one, whatever the second argument. /repo/src/SAMRAI/IntegratorContext.cpp:170-178, 209-212, 357-360, 403-407 -/
def samCoarsen (avg : ℕ → (C → K) → (C → K) → C → K) (ids : List ℕ) (fine : ℕ) (st : SamData C K) : SamData C K :=
  ids.foldl (fun s id => samSet s (fine - 1) id (avg fine (st fine id) (st (fine - 1) id))) st

/-- One call of a member function. `ResetCoarseFineFluxes` and `AccumulateCoarseFineFluxes` have empty bodies.
/repo/src/SAMRAI/IntegratorContext.cpp:234-254, 337-425 -/
def samCall (e : SamEnv C K) (ids : SamIds) (pairs : List (ℕ × ℕ)) (st : SamData C K) : SamCall K → SamData C K
  | .fillSingle l => samFill e e.ghostOne pairs l st
  | .fillTwo l => samFill e e.ghostTwo pairs l st
  | .applyBoundary l _ => samApplyBoundary e pairs l st
  | .fluxes l dt d => samSetAll st l ids.flux (e.fluxes l dt d (samFields st l ids.scratch))
  | .update l dt d => samSetAll st l (ids.scratch.take ids.flux.length)
      (e.update l dt d (samFields st l ids.scratch) (samFields st l ids.flux))
  | .complete l dt => samSetAll st l ids.scratch (e.complete l dt (samFields st l ids.scratch))
  | .accumulate _ _ _ => st
  | .correct f _ _ => samCoarsen e.coarsenFaces ids.flux f st
  | .resetFluxes _ _ => st
  | .coarsen f _ => samCoarsen e.coarsenCells ids.scratch f st
  | .dataToScratch l => samDataToScratch ids l st
  | .scratchToData l => samScratchToData ids l st

/-- A sequence of calls. Serves the model of /repo/include/fub/solver/SubcycleFineFirstSolver.hpp:112-175. -/
def samRun (e : SamEnv C K) (ids : SamIds) (pairs : List (ℕ × ℕ)) (calls : List (SamCall K)) (st : SamData C K) : SamData C K :=
  calls.foldl (samCall e ids pairs) st

end

/-! ### Clock -/

/-- Time points and cycle counters of the hierarchy and of the context.
/repo/include/fub/SAMRAI/PatchHierarchy.hpp:126-127, /repo/include/fub/SAMRAI/IntegratorContext.hpp:245-247 -/
structure SamClock (K : Type) where
  hierTime : List K
  hierCycles : List ℤ
  time : List K
  cycles : List ℤ
deriving DecidableEq, Repr

section
variable {K : Type} [Field K]

/-- The constructor of the context: its own vectors are resized, that is filled with zeros; those of the hierarchy stay.
/repo/src/SAMRAI/IntegratorContext.cpp:141-145 -/
def samNewContext (hierTime : List K) (hierCycles : List ℤ) (nlevel : ℕ) : SamClock K :=
  ⟨hierTime, hierCycles, List.replicate nlevel 0, List.replicate nlevel 0⟩

/-- Element access `v[static_cast<std::size_t>(level)]`; `none` is an access outside of the vector, which includes every negative level.
/repo/src/SAMRAI/PatchHierarchy.cpp:141-147 -/
def samAt {α : Type} (v : List α) (level : ℤ) : Option α := if level < 0 then none else v[level.toNat]?

/-- What `RegridAllFinerLevels(level)` asks SAMRAI to do: `none` if it reads outside of a vector first.
/repo/src/SAMRAI/GriddingAlgorithm.cpp:221-230 -/
def samRegrid (c : SamClock K) (level : ℤ) : Option (Bool × K) := do
  let t ← samAt c.hierTime level
  let _ ← samAt c.hierCycles level
  if level < 0 then pure (true, t) else pure (false, t)

/-- `PreAdvanceLevel(level, dt, subcycle)`: the returned level number. /repo/src/SAMRAI/IntegratorContext.cpp:310-319 -/
def samPreAdvance (c : SamClock K) (level : ℤ) (sub : ℤ) : Option ℤ :=
  if sub = 0 then (samRegrid c (level - 1)).map fun _ => level else some 0

/-- `PostAdvanceLevel(level, dt, subcycle)`. /repo/src/SAMRAI/IntegratorContext.cpp:321-335 -/
def samPostAdvance (c : SamClock K) (level : ℕ) (dt : K) : Option (SamClock K) := do
  let n ← c.cycles[level]?
  let t ← c.time[level]?
  pure ⟨c.hierTime.set level (t + dt), c.hierCycles.set level (n + 1), c.time.set level (t + dt), c.cycles.set level (n + 1)⟩

end

/-! ### Gridding -/

/-- The ratio stored in the native hierarchy for a level: `options_.refine_ratio` from the constructor of `PatchHierarchy`, replaced by the
constructor of `GriddingAlgorithm`. /repo/src/SAMRAI/PatchHierarchy.cpp:66-70, /repo/src/SAMRAI/GriddingAlgorithm.cpp:140-144 -/
def samNativeRatio {n : ℕ} (refineRatio : Fin n → ℤ) (maxLevels level : ℕ) : Option (Fin n → ℤ) :=
  let byHierarchy : ℕ → Option (Fin n → ℤ) := fun l => if 1 ≤ l ∧ l < maxLevels then some refineRatio else none
  let byGridding : ℕ → Option (Fin n → ℤ) := fun l => if 1 ≤ l ∧ l < maxLevels then some (fun _ => 2) else byHierarchy l
  byGridding level

/-- `IntegratorContext::GetRatioToCoarserLevel(level)`. /repo/src/SAMRAI/IntegratorContext.cpp:229-232 -/
def samContextRatio {n : ℕ} (refineRatio : Fin n → ℤ) (_level : ℕ) : Fin n → ℤ := refineRatio

/-- The loop of `tagCellsForRefinement` when the level can be refined: for every patch, its tags are set to zero and then the tagging method
is run on the whole level. /repo/src/SAMRAI/GriddingAlgorithm.cpp:81-90 -/
def samTag {C : Type} (patches : List ℕ) (tagLevel : (ℕ → C → ℤ) → ℕ → C → ℤ) (tags : ℕ → C → ℤ) : ℕ → C → ℤ :=
  patches.foldl (fun t p => tagLevel fun q c => if q = p then 0 else t q c) tags

/-- `ConstantBox::TagCellsForRefinement` on the cells of all patches: cells in both boxes are set to one.
/repo/src/SAMRAI/tagging_method/ConstantBox.cpp:28-46 -/
def samTagBox {C : Type} (patches : List ℕ) (inBox : C → Bool) (inPatch : ℕ → C → Bool) (tags : ℕ → C → ℤ) : ℕ → C → ℤ :=
  fun p c => if p ∈ patches ∧ inBox c = true ∧ inPatch p c = true then 1 else tags p c

/-! ### Objects and pointers -/

/-- A `GriddingAlgorithm` object: its address, the native hierarchy it owns, and the object its callbacks (`TagAndInit`) point to.
/repo/include/fub/SAMRAI/GriddingAlgorithm.hpp:88-97, /repo/src/SAMRAI/GriddingAlgorithm.cpp:124-129 -/
structure SamGrid where
  addr : ℕ
  native : ℕ
  callback : ℕ
deriving DecidableEq, Repr

/-- The copy constructor at address `a`; the hierarchy is copied to the new native object `h`.
/repo/src/SAMRAI/GriddingAlgorithm.cpp:165-191, /repo/src/SAMRAI/PatchHierarchy.cpp:75-80 -/
def SamGrid.copyAt (_g : SamGrid) (a h : ℕ) : SamGrid := ⟨a, h, a⟩

/-- The defaulted move constructor at address `a`: the shared pointers are taken over.
/repo/include/fub/SAMRAI/GriddingAlgorithm.hpp:66 -/
def SamGrid.moveAt (g : SamGrid) (a : ℕ) : SamGrid := ⟨a, g.native, g.callback⟩

/-- Copy assignment: a copy `tmp` at address `t` with native hierarchy `h` is swapped with the target.
/repo/include/fub/SAMRAI/GriddingAlgorithm.hpp:60-64 -/
def SamGrid.assign (target g : SamGrid) (t h : ℕ) : SamGrid := (g.copyAt t h).moveAt target.addr

/-- A context refers to its gridding algorithm by a shared pointer; the copy constructor is defaulted.
/repo/include/fub/SAMRAI/IntegratorContext.hpp:84, 238 -/
structure SamContextRef where
  gridding : ℕ
deriving DecidableEq, Repr

/-- The defaulted copy constructor. /repo/include/fub/SAMRAI/IntegratorContext.hpp:84 -/
def SamContextRef.copy (c : SamContextRef) : SamContextRef := ⟨c.gridding⟩

/-- The pointers `condition_` and `grid_` of the boundary wrappers as gridding algorithm handles, one per level, set in the constructor.
/repo/src/SAMRAI/IntegratorContext.cpp:147-155 -/
structure SamWrappers where
  gridding : ℕ
  boundaries : List ℕ
deriving DecidableEq, Repr

/-- The constructor. /repo/src/SAMRAI/IntegratorContext.cpp:139-155 -/
def samWrappersNew (g nlevel : ℕ) : SamWrappers := ⟨g, List.replicate nlevel g⟩

/-- `ResetHierarchyConfiguration(gridding)`. /repo/src/SAMRAI/IntegratorContext.cpp:222-227 -/
def SamWrappers.reset (w : SamWrappers) (g : ℕ) : SamWrappers := ⟨g, w.boundaries⟩

end Fub
