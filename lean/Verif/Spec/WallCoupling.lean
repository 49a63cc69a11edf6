import Verif.Model.WallCoupling
import Verif.Spec.CutSweep

/-! # Specification for the inflow from a tube through a wall -/

namespace Fub

/-- What the fluxes of level `l` have to see when the gas is in state `p`: in the cells of a connection the state of the tube, in every other wall cell the wall. -/
def SeesTubes {P R M : Type} (ph : WallPhysics P R M) (p : P) (l : ℕ) (s : WallStore R M) : Prop :=
  ∀ c : ℤ × ℤ, (ph.coupled l c = true → wallOtherSide s l c = some (some (ph.tube p l c).2) ∧ s.refs l c = some (ph.tube p l c).1) ∧
    (ph.coupled l c = false → wallOtherSide s l c = none ∧ ∀ r : R, ph.wall p l c = some r → s.refs l c = some r)

/-- What the fluxes of level `l` see instead if the coupling is lost: in the cells of a connection a state with density, momentum and energy zero on the other side of the wall, and the reference state of a wall without tube. -/
def SeesVacuum {P R M : Type} (ph : WallPhysics P R M) (p : P) (l : ℕ) (s : WallStore R M) : Prop :=
  ∀ c : ℤ × ℤ, ph.coupled l c = true → wallOtherSide s l c = some (some ph.zero) ∧ ∀ r : R, ph.wall p l c = some r → s.refs l c = some r

/-- The region of a box of cells of the coarsest level on level `l`, with refinement ratio two. -/
def InRegion (box : Rect) (l : ℕ) (c : ℤ × ℤ) : Prop := InRect box (c.1 / 2 ^ l, c.2 / 2 ^ l)

end Fub
