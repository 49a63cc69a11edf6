import Verif.Model.Control
import Verif.Model.Average

/-!
# Model of what the control of the gas turbine is told after a time step

Source: `/repo/include/fub/equations/perfect_gas_mix/PlenaControlFeedback.hpp`.

Simplifications: exact real numbers. The patches of a tube carry their own flux values; in the plenum a flux is a function of the face, so that the two patches at a common
face hold the same value. Of the plenum state only density, momentum and energy are averaged, which is all `euler::Pressure` reads. `ForEachFab` without a tag visits whole patches.
-/

namespace Fub

/-- One patch of faces of a tube: the faces `lo, …, hi` with the fluxes of density, first species and energy. Serves the model of
/repo/include/fub/equations/perfect_gas_mix/PlenaControlFeedback.hpp:96-113,196-215. -/
structure FacePatch where
  lo : ℤ
  hi : ℤ
  rho : ℤ → ℝ
  spec : ℤ → ℝ
  rhoe : ℤ → ℝ

/-- The local part: every patch of the process that contains the face overwrites the local variable, which begins with zero.
/repo/include/fub/equations/perfect_gas_mix/PlenaControlFeedback.hpp:101-113,200-215 -/
def localFace (val : FacePatch → ℤ → ℝ) (face : ℤ) (ps : List FacePatch) : ℝ :=
  ps.foldl (fun acc p => if p.lo ≤ face ∧ face ≤ p.hi then val p face else acc) 0

/-- `MPI_Allreduce` with `MPI_SUM` over all processes. /repo/include/fub/equations/perfect_gas_mix/PlenaControlFeedback.hpp:114-119,216-223 -/
def reduceFace (val : FacePatch → ℤ → ℝ) (face : ℤ) (procs : List (List FacePatch)) : ℝ := (procs.map (localFace val face)).sum

/-- The coarsest level of a tube: the domain has the cells `first, …, last`. Serves the model of
/repo/include/fub/equations/perfect_gas_mix/PlenaControlFeedback.hpp:90-100,190-199. -/
structure TubeEnds where
  first : ℤ
  last : ℤ
  procs : List (List FacePatch)

/-- Mass flux through `first_face`, /repo/include/fub/equations/perfect_gas_mix/PlenaControlFeedback.hpp:94,105,114. -/
def TubeEnds.inRho (t : TubeEnds) : ℝ := reduceFace FacePatch.rho t.first t.procs

/-- Species flux through `first_face`, /repo/include/fub/equations/perfect_gas_mix/PlenaControlFeedback.hpp:94,106,118. -/
def TubeEnds.inSpec (t : TubeEnds) : ℝ := reduceFace FacePatch.spec t.first t.procs

/-- Mass flux through `last_face`, the largest face of the converted domain, /repo/include/fub/equations/perfect_gas_mix/PlenaControlFeedback.hpp:92-95,109,116. -/
def TubeEnds.outRho (t : TubeEnds) : ℝ := reduceFace FacePatch.rho (t.last + 1) t.procs

/-- Energy flux through `last_face`, /repo/include/fub/equations/perfect_gas_mix/PlenaControlFeedback.hpp:196,212,222. -/
def TubeEnds.outRhoe (t : TubeEnds) : ℝ := reduceFace FacePatch.rhoe (t.last + 1) t.procs

/-- `ControlFeedback<1>::operator()`, /repo/include/fub/equations/perfect_gas_mix/PlenaControlFeedback.hpp:186-232. -/
noncomputable def tubeFeedback (eq : MixEq) (o : ControlOptions) (correlation : ℝ) (t : TubeEnds) (dt : ℝ) (s : ControlState) : Option ControlState :=
  feedbackStep eq o correlation t.inRho t.inSpec t.outRho t.outRhoe dt s

/-- `oosize * std::accumulate(begin, end, 0.0)`, /repo/include/fub/equations/perfect_gas_mix/PlenaControlFeedback.hpp:121-130. -/
noncomputable def tubeMean (l : List ℝ) : ℝ := 1 / (l.length : ℝ) * l.foldl (· + ·) 0

/-- `right_cell_boundary`, /repo/include/fub/equations/perfect_gas_mix/PlenaControlFeedback.hpp:52-57. -/
def turbineCells (cells : IndexBox 2) : IndexBox 2 := ⟨![cells.upper 0 - 1, cells.lower 1], cells.upper⟩

/-- `right_face_boundary`, /repo/include/fub/equations/perfect_gas_mix/PlenaControlFeedback.hpp:58-63: `convert` adds one face in the first direction, then both corners take the
smallest first coordinate. -/
def turbineFaces (cells : IndexBox 2) : IndexBox 2 :=
  let faces := (turbineCells cells).grow 0 0 1
  ⟨faces.lower, ![faces.lower 0 + 1, faces.upper 1]⟩

/-- The coarsest level of the plenum after a step: patches of cells on every process, the fluxes of mass in the first direction and the cells. Serves the model of
/repo/include/fub/equations/perfect_gas_mix/PlenaControlFeedback.hpp:44-51,64-68. -/
structure PlenumGrid where
  ranks : List (List (IndexBox 2))
  flux : Index 2 → ℝ
  density : Index 2 → ℝ
  momentum : Index 2 → Fin 2 → ℝ
  energy : Index 2 → ℝ

/-- The patches of faces that belong to patches of cells. Serves the model of /repo/include/fub/equations/perfect_gas_mix/PlenaControlFeedback.hpp:47-48. -/
def PlenumGrid.faceRanks (g : PlenumGrid) : List (List (IndexBox 2)) := g.ranks.map fun r => r.map fun b => b.grow 0 0 1

/-- `fluxes_turbine.density`, /repo/include/fub/equations/perfect_gas_mix/PlenaControlFeedback.hpp:64-67. -/
noncomputable def turbineFlux (g : PlenumGrid) (cells : IndexBox 2) : ℝ := averageState g.flux (turbineFaces cells) g.faceRanks

/-- `mdot_turbine`, /repo/include/fub/equations/perfect_gas_mix/PlenaControlFeedback.hpp:77-79; `area` is `surface_area_turbine_plenum_to_turbine`. -/
noncomputable def turbineMassflow (g : PlenumGrid) (cells : IndexBox 2) (area : ℝ) : ℝ := turbineFlux g cells * area

/-- `turbine_boundary_state`, /repo/include/fub/equations/perfect_gas_mix/PlenaControlFeedback.hpp:68-75, with `euler::Pressure` of the mean conservative state,
/repo/include/fub/equations/PerfectGasMix.hpp:566-570. -/
noncomputable def turbineBoundaryState (eq : MixEq) (g : PlenumGrid) (cells : IndexBox 2) : PlenumState :=
  let mean := fun (f : Index 2 → ℝ) => averageState f (turbineCells cells) g.ranks
  let rho := mean g.density
  let p := (mean g.energy - gasKinetic rho (fun i => mean fun c => g.momentum c i)) * eq.gammaMinusOne
  ⟨p, p / rho * (1 / eq.Rspec), 0, 0, 0, false⟩

/-- `ControlFeedback<2>::operator()`, /repo/include/fub/equations/perfect_gas_mix/PlenaControlFeedback.hpp:42-134; `cells` is `boundary_box_` or the domain. -/
noncomputable def plenumFeedback (eq plenumEq : MixEq) (o : ControlOptions) (area : ℝ) (cells : IndexBox 2) (g : PlenumGrid) (tubes : List TubeEnds) (dt : ℝ) (s : ControlState) :
    Option ControlState :=
  updatePlena eq o
    ⟨turbineMassflow g cells area, turbineBoundaryState plenumEq g cells, tubeMean (tubes.map (·.inRho)), tubeMean (tubes.map (·.inSpec)),
     tubeMean (tubes.map (·.outRho)), dt⟩ s

end Fub
