import Verif.Model.Amr

/-!
# Composite integral and boundary fluxes of a hierarchy
-/

namespace Fub
open Finset
variable {n : Nat} {K X : Type} [Field K]

/-- A properly nested hierarchy: the coarsest level is the whole domain; each finer level consists of the refinement of the covered cells of the
next coarser one; the covered cells do not touch cells of the domain outside their level; nothing covers the finest level. -/
structure Grids.Nested (g : Grids n) : Prop where
  base : g.cells 0 = g.domain 0
  covered_sub : ∀ l, g.covered l ⊆ g.cells l
  cells_sub : ∀ l, g.cells l ⊆ g.domain l
  refine : ∀ l, l + 1 < g.levels → ∀ i, i ∈ g.cells (l + 1) ↔ coarseOf (g.ratio (l + 1)) i ∈ g.covered l
  refine_domain : ∀ l, l + 1 < g.levels → ∀ i, i ∈ g.domain (l + 1) ↔ coarseOf (g.ratio (l + 1)) i ∈ g.domain l
  buffer : ∀ l, ∀ i ∈ g.covered l, ∀ d, (shift i d 1 ∈ g.domain l → shift i d 1 ∈ g.cells l) ∧
    (shift i d (-1) ∈ g.domain l → shift i d (-1) ∈ g.cells l)
  finest : ∀ l, g.levels ≤ l + 1 → g.covered l = ∅
  ratio_pos : ∀ l, 0 < g.ratio l

/-- The cells of a level that are not covered by finer cells. -/
def Grids.valid (g : Grids n) (l : Nat) : Finset (Index n) := g.cells l \ g.covered l

/-- The integral of the conserved variable over the domain: every point counts with the finest level that covers it. -/
def composite (g : Grids n) (dx : Nat → Fin n → K) (s : AmrState n K X) : K :=
  ∑ l ∈ range g.levels, (∏ d, dx l d) * ∑ i ∈ g.valid l, s.u l i

/-- What one update lets into the domain through the domain boundary: area times step size times flux, over the boundary faces of
uncovered cells, positive at lower and negative at upper boundaries. -/
def boundaryInflow (g : Grids n) (dx : Nat → Fin n → K) (e : FluxUse n K) : K :=
  (∏ d ∈ univ.erase e.dir, dx e.level d) * e.dt *
    (∑ i ∈ (g.valid e.level).filter (fun i => shift i e.dir (-1) ∉ g.domain e.level), e.flux i -
     ∑ i ∈ (g.valid e.level).filter (fun i => shift i e.dir 1 ∉ g.domain e.level), e.flux (shift i e.dir 1))

/-- The program part does not touch conserved data inside the patches, flux registers or the log. -/
def Keeps (g : Grids n) (f : AmrState n K X → AmrState n K X) : Prop :=
  ∀ s, (f s).reg = s.reg ∧ (f s).log = s.log ∧ ∀ l, ∀ i ∈ g.cells l, (f s).u l i = s.u l i

/-- Assumptions on the exchangeable parts: only fluxes, ghost cells and derived quantities are computed by them. The completion of
states must not change fluxes. -/
structure AmrHooks.Ok (g : Grids n) (h : AmrHooks n K X) : Prop where
  pre : ∀ l dt sub, Keeps g (h.pre l dt sub)
  applyBc : ∀ l d, Keeps g (h.applyBc l d)
  preSplit : ∀ l dt d c, Keeps g (h.preSplit l dt d c)
  fluxes : ∀ l dt d, Keeps g (h.fluxes l dt d)
  complete : ∀ l dt, Keeps g (h.complete l dt)
  completeFlux : ∀ l dt s, (h.complete l dt s).flux = s.flux
  copyBack : ∀ l, Keeps g (h.copyBack l)
  fillSingle : ∀ l, Keeps g (h.fillSingle l)
  fillTwo : ∀ l k, Keeps g (h.fillTwo l k)
  post : ∀ l dt sub, Keeps g (fun s => (h.post l dt sub s).1)

/-- From level `l` on every covered cell holds the mean of the finer cells in it. -/
def Synced (g : Grids n) (l : Nat) (s : AmrState n K X) : Prop :=
  ∀ k, l ≤ k → k + 1 < g.levels → ∀ i ∈ g.covered k,
    s.u k i = (∑ f ∈ fineCells (g.ratio (k + 1)) i, s.u (k + 1) f) / ((g.ratio (k + 1) : K) ^ n)

end Fub
