import Verif.Model.PatchIntegrator

/-!
# Model of the SAMRAI backend: views of patch data, the conservative update, cell coordinates and variable registration

Sources: `/repo/include/fub/SAMRAI/ViewPatch.hpp`, `/repo/src/SAMRAI/HyperbolicTimeIntegrator.cpp`,
`/repo/include/fub/SAMRAI/FluxMethodAdapter.hpp`, `/repo/src/SAMRAI/CartesianPatchHierarchy.cpp`,
`/repo/include/fub/SAMRAI/RegisterVariables.hpp`.

Simplifications: exact numbers; a SAMRAI array is its first address, its index box and its depth. The variable database of SAMRAI is a table
of names and of ids; an id is new for every new pair of variable and context.
-/

namespace Fub

/-- `SAMRAI::pdat::ArrayData`: pointer, box with inclusive corners, and depth. Serves the model of /repo/include/fub/SAMRAI/ViewPatch.hpp:34-52. -/
structure SamArray (d : ℕ) where
  base : ℤ
  lo : Index d
  up : Index d
  depth : ℕ

/-- `box.numberCells(d)`. Serves the model of /repo/include/fub/SAMRAI/ViewPatch.hpp:44-46. -/
def SamArray.cells {d : ℕ} (a : SamArray d) : Fin d → ℕ := fun i => (a.up i - a.lo i + 1).toNat

/-- `AsIndexBox<Rank>(box)`: coordinates beyond the dimension of the box keep the zeros of the initialisation.
/repo/include/fub/SAMRAI/ViewPatch.hpp:74-83 -/
def samIndexBox {d : ℕ} (rank : ℕ) (lo up : Index d) : IndexBox rank :=
  ⟨fun i => if h : i.1 < d then lo ⟨i.1, h⟩ else 0, fun i => if h : i.1 < d then up ⟨i.1, h⟩ + 1 else 0⟩

/-- The extents of `MakeMdSpan<Rank>(array)`: `none` is the exception. /repo/include/fub/SAMRAI/ViewPatch.hpp:36-51 -/
def samExtents {d : ℕ} (rank : ℕ) (a : SamArray d) : Option (List ℕ) :=
  if (a.depth > 1 ∧ rank < d + 1) ∨ (a.depth = 1 ∧ rank < d) then none
  else some (List.ofFn fun i : Fin rank => if h : i.1 < d then a.cells ⟨i.1, h⟩ else if a.depth > 1 ∧ i.1 = d then a.depth else 1)

/-- `MakePatchDataView<Rank>(array)`. /repo/include/fub/SAMRAI/ViewPatch.hpp:85-96 -/
def samView {d : ℕ} (rank : ℕ) (a : SamArray d) : Option (PatchView rank) :=
  (samExtents rank a).map fun ext => ⟨MdSpan.mkLeft a.base ext, (samIndexBox rank a.lo a.up).lower⟩

/-- The cells of `HyperbolicTimeIntegrator::UpdateConservatively`; `rank` is `SAMRAI_MAXIMUM_DIMENSION`.
/repo/src/SAMRAI/HyperbolicTimeIntegrator.cpp:46-48 -/
def samUpdateBox {d : ℕ} (rank : ℕ) (a : SamArray d) (dir : Fin rank) (ncons : ℕ) : IndexBox (rank + 1) :=
  ((samIndexBox rank a.lo a.up).shrink dir 1 1).embed 0 (ncons : ℤ)

/-- The body of the loop over the variables of one patch. /repo/src/SAMRAI/HyperbolicTimeIntegrator.cpp:46-57 -/
def samUpdate {d : ℕ} {K : Type} [Field K] (rank fuel w : ℕ) (hw : 0 < w) (state flux : SamArray d) (dir : Fin rank) (ncons : ℕ)
    (dt dx : K) (m : Mem K) : Option (Mem K) := do
  let cells := samUpdateBox rank state dir ncons
  let faces := cells.grow dir.castSucc 0 1
  let sv ← samView (rank + 1) state
  let fv ← samView (rank + 1) flux
  let next := sv.subview cells
  updateSimd fuel w hw next next (fv.subview faces) dt dx dir m

/-- The ghost box of cell data with a ghost width. /repo/src/SAMRAI/IntegratorContext.cpp:68, 80-81 -/
def samGhostBox {d : ℕ} (lo up : Index d) (g : ℤ) : Index d × Index d := (fun i => lo i - g, fun i => up i + g)

/-- The faces on which `FluxMethodAdapter::ComputeNumericFluxes` computes fluxes: the ghost box of the cells shrunk by the stencil width on both
sides. /repo/include/fub/SAMRAI/FluxMethodAdapter.hpp:126-132 -/
def samFaceBox {d : ℕ} (lo up : Index d) (scratchGcw stencil : ℤ) (dir : Fin d) : IndexBox d :=
  (samIndexBox d (samGhostBox lo up scratchGcw).1 (samGhostBox lo up scratchGcw).2).shrink dir stencil stencil

/-- The faces normal to `dir` that are stored in the flux data with a ghost width. /repo/src/SAMRAI/IntegratorContext.cpp:93-97 -/
def samSideBox {d : ℕ} (lo up : Index d) (fluxGcw : ℤ) (dir : Fin d) : IndexBox d :=
  (samIndexBox d (samGhostBox lo up fluxGcw).1 (samGhostBox lo up fluxGcw).2).grow dir 0 1

/-! ### Coordinates -/

/-- One component of `ComputeCellCoordinates`: `none` is the division 0 / 0 of a box with one cell, which is not a number.
/repo/src/SAMRAI/CartesianPatchHierarchy.cpp:60-81 -/
def samCellCoordinate {K : Type} [Field K] (xlo xup dx : K) (lo up i : ℤ) : Option K :=
  if up = lo then none
  else
    let lambda := ((i - lo : ℤ) : K) / ((up - lo : ℤ) : K)
    some ((xlo + dx / 2) * (1 - lambda) + (xup - dx / 2) * lambda)

/-- One component of `GetCellCenter(geom, is...)`. /repo/include/fub/SAMRAI/PatchHierarchy.hpp:138-150 -/
def samCellCenter {K : Type} [Field K] (xlo dx : K) (i : ℤ) : K := xlo + 1 / 2 * dx + (i : K) * dx

/-- The domain box of `MakeCartesianGridGeometry`: from zero to `n - 1`. /repo/include/fub/SAMRAI/PatchHierarchy.hpp:52-68 -/
def samDomain {d : ℕ} (n : Fin d → ℤ) : Index d × Index d := (fun _ => 0, fun i => n i - 1)

/-! ### Variables -/

/-- The variable database: depth and dimension of every variable by name, and the id of every pair of variable and context.
Serves the model of /repo/include/fub/SAMRAI/RegisterVariables.hpp:48-60, 72-84. -/
structure SamDb where
  vars : String → Option (ℕ × ℕ)
  ids : String → String → Option ℕ
  next : ℕ

/-- `MakeVariableName(prefix, name)`. /repo/src/SAMRAI/RegisterVariables.cpp:25-31 -/
def samVariableName (pre name : String) : String := if pre = "" then name else pre ++ "_" ++ name

/-- `GetVariable(dim, name, depth)` followed by `registerVariableAndContext`; `none` is the exception.
/repo/include/fub/SAMRAI/RegisterVariables.hpp:45-61, 81-84 -/
def samRegisterOne (pre ctx : String) (dim : ℕ) (v : String × ℕ) (db : SamDb) : Option (ℕ × SamDb) :=
  let name := samVariableName pre v.1
  match db.vars name with
  | some (depth', dim') =>
    if depth' = v.2 ∧ dim' = dim then
      match db.ids name ctx with
      | some id => some (id, db)
      | none => some (db.next, { db with ids := fun n c => if n = name ∧ c = ctx then some db.next else db.ids n c, next := db.next + 1 })
    else none
  | none => some (db.next,
      { vars := fun n => if n = name then some (v.2, dim) else db.vars n,
        ids := fun n c => if n = name ∧ c = ctx then some db.next else db.ids n c, next := db.next + 1 })

/-- `RegisterVariablesHelper`: the variables in order. /repo/include/fub/SAMRAI/RegisterVariables.hpp:63-86 -/
def samRegister (pre ctx : String) (dim : ℕ) : List (String × ℕ) → SamDb → Option (List ℕ × SamDb)
  | [], db => some ([], db)
  | v :: vs, db => do
    let (id, db) ← samRegisterOne pre ctx dim v db
    let (ids, db) ← samRegister pre ctx dim vs db
    pure (id :: ids, db)

end Fub
