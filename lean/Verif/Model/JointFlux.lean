import Verif.Model.MultiBlock
import Verif.Model.Valve

/-!
The numeric fluxes of coupled blocks: `ComputeNumericFluxes` of both multi-block contexts, and the update of the tubes in a split step.
-/

namespace Fub
variable {K : Type} [Field K] [LinearOrder K] {n : ℕ}

/-- `BlockConnection`: the mirror box of the tube is the range `[tubeLo, tubeHi)` along its only axis. `off` says that the flux at this joint is left alone.
/repo/include/fub/AMReX/multi_block/MultiBlockBoundary.hpp:49-62 -/
structure JointConn (n : ℕ) where
  tube : ℕ
  tubeLo : ℤ
  tubeHi : ℤ
  plenum : ℕ
  plenumBox : IndexBox (n + 1)
  dir : Fin (n + 1)
  side : ℕ
  off : Bool

/-- What `ComputeNumericFluxes` reads on one level: which blocks have the level, the refinement ratios of the levels up to it, the tiles of the plenum on every process, the open fractions and the fluxes of the faces of the plenum in every direction, the faces that the patches of a tube have and the numbers of components.
/repo/src/AMReX/multi_block/MultiBlockIntegratorContext.cpp:566-577 -/
structure JointLevel (K : Type) (n : ℕ) where
  tubeExists : ℕ → Bool
  plenumExists : ℕ → Bool
  tubeRatios : ℕ → List ℤ
  plenumRatios : ℕ → List (Index (n + 1))
  tiles : ℕ → List (List (IndexBox (n + 1)))
  area : ℕ → Fin (n + 1) → Index (n + 1) → K
  flux : ℕ → Fin (n + 1) → Index (n + 1) → ℕ → K
  tubeHas : ℕ → ℤ → Bool
  tubeComps : ℕ
  plenumComps : ℕ

/-- `RefineCoarseBoxToLevel_` for a box of cells. The largest index of a refined box is `(hi + 1) r - 1`, so both ends of a half open box are multiplied. /repo/src/AMReX/multi_block/MultiBlockIntegratorContext.cpp:535-544, /repo/src/AMReX/multi_block/MultiBlockIntegratorContext2.cpp:488-497 -/
def refineJointBox (ratios : List (Index (n + 1))) (box : IndexBox (n + 1)) : IndexBox (n + 1) :=
  ratios.foldl (fun b r => ⟨fun d => b.lower d * r d, fun d => b.upper d * r d⟩) box

/-- The face of the tube at the joint: the last face of the refined mirror box if the plenum lies at the upper end of the tube, the first face otherwise. The ends of a box of nodes are multiplied by the ratio.
/repo/src/AMReX/multi_block/MultiBlockIntegratorContext.cpp:579-581, /repo/src/AMReX/multi_block/MultiBlockIntegratorContext2.cpp:530-532 -/
def jointFace (ratios : List ℤ) (lo hi : ℤ) (side : ℕ) : ℤ :=
  if side = 0 then ratios.foldl (fun f r => f * r) hi else ratios.foldl (fun f r => f * r) lo

/-- The component of the plenum that is copied to component `c` of the tube: mass, the first momentum and everything behind the momenta. /repo/src/AMReX/multi_block/MultiBlockIntegratorContext.cpp:586-595, /repo/src/AMReX/multi_block/MultiBlockIntegratorContext2.cpp:537-546 -/
def jointComponent (n c : ℕ) : ℕ := if c < 2 then c else n + 2 + (c - 2)

/-- The faces of a joint on the plenum's side, on the level. /repo/src/AMReX/multi_block/MultiBlockIntegratorContext.cpp:467-478,574-575 -/
def jointBoundary (g : JointLevel K n) (c : JointConn n) : IndexBox (n + 1) := getBoundary (refineJointBox (g.plenumRatios c.plenum) c.plenumBox) c.dir c.side

/-- `AverageFlux_` for one connection and component. /repo/src/AMReX/multi_block/MultiBlockIntegratorContext.cpp:480-533,573-577 -/
def jointAverage (g : JointLevel K n) (c : JointConn n) (comp : ℕ) : K :=
  averageFlux (g.area c.plenum c.dir) (fun i => g.flux c.plenum c.dir i comp) (jointBoundary g c) (g.tiles c.plenum)

/-- The body of the loop over the connections. Levels that a block does not have are read past the end of an array. `fluxes tube face component` are the fluxes of the tubes.
/repo/src/AMReX/multi_block/MultiBlockIntegratorContext.cpp:565-601, /repo/src/AMReX/multi_block/MultiBlockIntegratorContext2.cpp:518-551 -/
def jointStep (g : JointLevel K n) (dir : Fin (n + 1)) (fluxes : ℕ → ℤ → ℕ → K) (c : JointConn n) : Option (ℕ → ℤ → ℕ → K) :=
  if dir = c.dir ∧ c.off = false then
    if g.tubeExists c.tube = true ∧ g.plenumExists c.plenum = true ∧ g.tubeComps + n ≤ g.plenumComps then
      let face := jointFace (g.tubeRatios c.tube) c.tubeLo c.tubeHi c.side
      some fun t f k => if t = c.tube ∧ f = face ∧ g.tubeHas t f = true ∧ k < g.tubeComps then jointAverage g c (jointComponent n k) else fluxes t f k
    else none
  else some fluxes

/-- `MultiBlockIntegratorContext2::ComputeNumericFluxes` behind the computation of the fluxes of the blocks: `off` is set if the connection has a normal. /repo/src/AMReX/multi_block/MultiBlockIntegratorContext2.cpp:514-551 -/
def jointFluxes (g : JointLevel K n) (dir : Fin (n + 1)) (conns : List (JointConn n)) (fluxes : ℕ → ℤ → ℕ → K) : Option (ℕ → ℤ → ℕ → K) := conns.foldlM (jointStep g dir) fluxes

/-- `MultiBlockIntegratorContext::ComputeNumericFluxes`: the valves of the boundaries of the level are walked through along with the connections, a closed one switches its joint off. /repo/src/AMReX/multi_block/MultiBlockIntegratorContext.cpp:561-602 -/
def valveFluxes (g : JointLevel K n) (dir : Fin (n + 1)) (conns : List (JointConn n)) (valves : List (Option ValveState)) (fluxes : ℕ → ℤ → ℕ → K) : Option (ℕ → ℤ → ℕ → K) :=
  jointFluxes g dir ((conns.zip valves).map fun p => { p.1 with off := decide (p.2 = some .closed) }) fluxes

/-- One split step as far as the tubes are concerned: their fluxes are computed and they are updated only in the first direction, the joints are treated in every direction. `numeric` computes the fluxes of the tubes from their states.
/repo/src/AMReX/multi_block/MultiBlockIntegratorContext.cpp:549-602,604-621, /repo/src/AMReX/multi_block/MultiBlockIntegratorContext2.cpp:501-567 -/
def tubeStep (g : JointLevel K n) (conns : List (JointConn n)) (numeric : (ℕ → ℤ → ℕ → K) → ℕ → ℤ → ℕ → K) (lambda : K) (s : (ℕ → ℤ → ℕ → K) × (ℕ → ℤ → ℕ → K)) (dir : Fin (n + 1)) :
    Option ((ℕ → ℤ → ℕ → K) × (ℕ → ℤ → ℕ → K)) :=
  let fluxes := if dir = 0 then numeric s.1 else s.2
  (jointFluxes g dir conns fluxes).map fun f => (if dir = 0 then fun t i k => s.1 t i k + lambda * (f t i k - f t (i + 1) k) else s.1, f)

/-- The split steps of one sweep over the directions. /repo/src/AMReX/multi_block/MultiBlockIntegratorContext.cpp:549-621 -/
def tubeSweep (g : JointLevel K n) (conns : List (JointConn n)) (numeric : (ℕ → ℤ → ℕ → K) → ℕ → ℤ → ℕ → K) (lambda : K) (dirs : List (Fin (n + 1))) (s : (ℕ → ℤ → ℕ → K) × (ℕ → ℤ → ℕ → K)) :
    Option ((ℕ → ℤ → ℕ → K) × (ℕ → ℤ → ℕ → K)) := dirs.foldlM (tubeStep g conns numeric lambda) s

end Fub
