import Verif.Model.NodalLevels

/-! What the coefficients of the nodal operator should be after a history of calls (C189). -/

namespace Fub

variable {K : Type}

/-- Grids as AMReX makes them: there is at least one multigrid level, the cells under a valid cell of a coarser multigrid level are valid, fine grids consist of whole coarse cells, and filling ghost cells does not touch valid cells. -/
structure HelmGrids.Wf (g : HelmGrids K) : Prop where
  amr : 0 < g.namr
  mg : ∀ a < g.namr, 0 < g.nmg a
  nested : ∀ a m, a < g.namr → m + 1 < g.nmg a → ∀ i j, g.cells a (m + 1) i j = true → ∀ p q : ℤ, (p = 0 ∨ p = 1) → (q = 0 ∨ q = 1) → g.cells a m (2 * i + p) (2 * j + q) = true
  ratio : ∀ a, a + 1 < g.namr → 0 < g.ratio a
  whole : ∀ a, a + 1 < g.namr → ∀ i j, g.cells (a + 1) 0 (g.ratio a * i) (g.ratio a * j) = true → ∀ p q : ℕ, p < g.ratio a → q < g.ratio a → g.cells (a + 1) 0 (g.ratio a * i + p) (g.ratio a * j + q) = true
  exchange : ∀ a m, a < g.namr → m < g.nmg a → ∀ f i j, g.cells a m i j = true → g.exchange a m f i j = f i j
  mirror : ∀ a m, a < g.namr → m < g.nmg a → ∀ f i j, g.cells a m i j = true → g.mirror a m f i j = f i j

/-- A cell of refinement level `a` lies under the grids of level `a + 1`. -/
def HelmGrids.covered (g : HelmGrids K) (a : ℕ) (i j : ℤ) : Prop := a + 1 < g.namr ∧ g.cells (a + 1) 0 (g.ratio a * i) (g.ratio a * j) = true

/-- The level named in a call exists. -/
def HelmOp.InRange (g : HelmGrids K) : HelmOp K → Prop
  | .sigma a _ => a < g.namr
  | .cross a _ => a < g.namr
  | .alpha a _ => a < g.namr
  | _ => True

/-- The argument of a call which sets `sigma` of level `a`, else what was there before. -/
def HelmOp.takeSigma (a : ℕ) (acc : ℤ → ℤ → K) : HelmOp K → ℤ → ℤ → K
  | .sigma b f => if b = a then f else acc
  | _ => acc

/-- The argument of a call which sets `cross` of level `a`, else what was there before. -/
def HelmOp.takeCross (a : ℕ) (acc : (ℤ → ℤ → K) × (ℤ → ℤ → K)) : HelmOp K → (ℤ → ℤ → K) × (ℤ → ℤ → K)
  | .cross b f => if b = a then f else acc
  | _ => acc

/-- The argument of a call which sets `alpha` of level `a`, else what was there before. -/
def HelmOp.takeAlpha (a : ℕ) (acc : ℤ → ℤ → K) : HelmOp K → ℤ → ℤ → K
  | .alpha b f => if b = a then f else acc
  | _ => acc

section Zero
variable [Zero K]

/-- The coefficient last given to `setSigma` for a level, zero if there was none. -/
def lastSigma (ops : List (HelmOp K)) (a : ℕ) : ℤ → ℤ → K :=
  ops.foldl (HelmOp.takeSigma a) fun _ _ => 0

/-- The coefficients last given to `setSigmaCross` for a level. -/
def lastCross (ops : List (HelmOp K)) (a : ℕ) : (ℤ → ℤ → K) × (ℤ → ℤ → K) :=
  ops.foldl (HelmOp.takeCross a) (fun _ _ => 0, fun _ _ => 0)

/-- The diagonal last given to `setAlpha` for a level. -/
def lastAlpha (ops : List (HelmOp K)) (a : ℕ) : ℤ → ℤ → K :=
  ops.foldl (HelmOp.takeAlpha a) fun _ _ => 0

end Zero

/-- The call sets neither cross coefficients nor a diagonal. -/
def HelmOp.plain : HelmOp K → Bool
  | .cross _ _ => false
  | .alpha _ _ => false
  | _ => true

/-- A direction is in use: the second only with harmonic averages. -/
def HelmStore.active (s : HelmStore K) (d : Fin 2) : Prop := d = 0 ∨ s.harmonic = true

end Fub
