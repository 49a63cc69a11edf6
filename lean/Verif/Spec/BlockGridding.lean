import Verif.Model.BlockGridding

/-! # What can be seen of a gridding of coupled blocks -/

namespace Fub

variable {T P V C : Type}

/-- All pointers are valid. -/
def BlockGrid.Valid (h : BlockHeap T P V) (g : BlockGrid C) : Prop :=
  (∀ a ∈ g.tubes, a < h.tubes.length) ∧ (∀ a ∈ g.plena, a < h.plena.length)

/-- The tubes behind `GetTubes()`. -/
def tubesSeen (h : BlockHeap T P V) (g : BlockGrid C) : List (Option T) := g.tubes.map fun a => h.tubes[a]?

/-- The plena behind `GetPlena()`. -/
def plenaSeen (h : BlockHeap T P V) (g : BlockGrid C) : List (Option P) := g.plena.map fun a => h.plena[a]?

/-- The states of the valves of all boundaries, level by level. -/
def valvesSeen (h : BlockHeap T P V) (g : BlockGrid C) : List (List (Option V)) :=
  g.boundaries.map fun row => row.map fun b => b.valve.bind fun a => h.valves[a]?

end Fub
