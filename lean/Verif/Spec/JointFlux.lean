import Verif.Model.JointFlux
import Verif.Spec.PatchIntegrator
import Verif.Props.Average

/-! What is said about coupled fluxes: the joints, the faces between two blocks and the components that both have. -/

namespace Fub
variable {K : Type} {n : ℕ}

/-- The connection is treated in this direction. -/
def JointActive (dir : Fin (n + 1)) (c : JointConn n) : Prop := c.dir = dir ∧ c.off = false

/-- The place where the tube of the connection meets the plenum on the level. -/
def meetsAt (g : JointLevel K n) (c : JointConn n) : ℕ × ℤ :=
  (c.tube, (if c.side = 0 then c.tubeHi else c.tubeLo) * (g.tubeRatios c.tube).prod)

/-- The faces of the coarse mirror box at its lower end, on a level whose cells are smaller by `r`: the cells of the box are smaller by `r`, the first coordinate is fixed. -/
def lowerFaces (box : IndexBox (n + 1)) (r : Index (n + 1)) (d : Fin (n + 1)) : Set (Index (n + 1)) :=
  {f | f d = box.lower d * r d ∧ ∀ e, e ≠ d → box.lower e * r e ≤ f e ∧ f e < box.upper e * r e}

/-- The blocks of the connections have the level and the plena have all components. -/
def LevelsFit (g : JointLevel K n) (conns : List (JointConn n)) (dir : Fin (n + 1)) : Prop :=
  ∀ c ∈ conns, JointActive dir c → g.tubeExists c.tube = true ∧ g.plenumExists c.plenum = true ∧ g.tubeComps + n ≤ g.plenumComps

/-- Every tile of the plenum misses the faces. -/
def TilesMiss (box : IndexBox (n + 1)) (tiles : List (IndexBox (n + 1))) : Prop := ∀ t ∈ tiles, Disjoint t.toSet box.toSet

end Fub
