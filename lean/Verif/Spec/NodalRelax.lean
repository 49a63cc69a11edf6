import Verif.Props.NodalSmooth
import Mathlib.Data.Real.Basic

/-!
Specification of a convergent relaxation.
-/

namespace Fub

/-- The field solves the equation at the nodes of the patch (zero at masked nodes) and agrees with the given field at all others, in particular at the ghost nodes. -/
def PatchSolution (c : HelmCoef ℤ ℤ ℝ) (msk : ℤ → ℤ → Bool) (rhs : ℤ → ℤ → ℝ) (patch : ℤ → ℤ → Prop) (given x : ℤ → ℤ → ℝ) : Prop :=
  (∀ i j, patch i j → (msk i j = true → x i j = 0) ∧ (msk i j = false → helmApply c msk x i j = rhs i j))
    ∧ ∀ i j, ¬ patch i j → x i j = given i j

/-- A sequence of fields converges to a field, everywhere and at least as fast as a geometric sequence. -/
def ConvergesFast (f : ℕ → ℤ → ℤ → ℝ) (x : ℤ → ℤ → ℝ) : Prop :=
  ∃ C q : ℝ, 0 ≤ q ∧ q < 1 ∧ ∀ k i j, |f k i j - x i j| ≤ C * q ^ k

/-- The nodes of a box. -/
def InBox (ilo ihi jlo jhi i j : ℤ) : Prop := (ilo ≤ i ∧ i ≤ ihi) ∧ (jlo ≤ j ∧ j ≤ jhi)

end Fub
