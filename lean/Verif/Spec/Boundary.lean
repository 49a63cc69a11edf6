import Verif.Model.Boundary
import Verif.Spec.IndexBox

/-!
# What ghost cells of a boundary are, and what they should contain
-/

namespace Fub
variable {n : Nat} {α : Type*}

/-- The cell lies beyond the lower (`side = 0`) or upper (`side = 1`) end of the domain in direction `dir`. -/
def Beyond (domain : IndexBox n) (dir : Fin n) (side : Int) (x : Index n) : Prop :=
  (side = 0 ∧ x dir < domain.lower dir) ∨ (side = 1 ∧ domain.upper dir ≤ x dir)

instance (domain : IndexBox n) (dir : Fin n) (side : Int) (x : Index n) : Decidable (Beyond domain dir side x) := by
  unfold Beyond; infer_instance

/-- The mirror image of a cell: the cell at the same distance from the domain boundary on the other side of the wall. The wall lies between the cells
`w - 1` and `w`, where `w` is `lower` for `side = 0` and `upper` for `side = 1`; a cell `x` has the image `2 w - 1 - x`. -/
def mirrorCell (domain : IndexBox n) (dir : Fin n) (side : Int) (x : Index n) : Index n := fun d =>
  if d = dir then 2 * (if side = 0 then domain.lower dir else domain.upper dir) - 1 - x dir else x d

/-- The nearest cell of the domain in direction `dir`. -/
def edgeCell (domain : IndexBox n) (dir : Fin n) (side : Int) (x : Index n) : Index n := fun d =>
  if d = dir then (if side = 0 then domain.lower dir else domain.upper dir - 1) else x d

/-- A patch inside the domain with ghost width `ngrow` in all directions: its valid box is not empty and lies in the domain, and the grown tiles cover
exactly the grown valid box and each contain a cell column of the domain (they are tiles of the valid box grown to some sides). -/
structure IsPatch (g : Geom n) (ngrow : Int) (valid : IndexBox n) (p : PatchTiles n) : Prop where
  ngrow_nonneg : 0 ≤ ngrow
  inside : ∀ d, g.domain.lower d ≤ valid.lower d ∧ valid.lower d < valid.upper d ∧ valid.upper d ≤ g.domain.upper d
  fab_eq : p.fab = ⟨fun d => valid.lower d - ngrow, fun d => valid.upper d + ngrow⟩
  cover : ∀ x, x ∈ p.fab.toSet ↔ ∃ t ∈ p.tiles, x ∈ t.toSet
  tile : ∀ t ∈ p.tiles, ∀ d, t.lower d < g.domain.upper d ∧ g.domain.lower d < t.upper d

/-- The nearest cell of the domain with respect to the sides in `L`: an index beyond a side in `L` becomes the last index before that side. -/
def nearestCell (domain : IndexBox n) (L : List (Fin n × Int)) (x : Index n) : Index n := fun d =>
  if x d < domain.lower d ∧ (d, 0) ∈ L then domain.lower d
  else if domain.upper d ≤ x d ∧ (d, 1) ∈ L then domain.upper d - 1
  else x d

/-- The mirror image of a cell at all walls it lies behind. -/
def mirrorAll (domain : IndexBox n) (x : Index n) : Index n := fun d =>
  if x d < domain.lower d then 2 * domain.lower d - 1 - x d
  else if domain.upper d ≤ x d then 2 * domain.upper d - 1 - x d
  else x d

/-- Reflect a state once for each direction in which the cell lies outside of the domain, in the order of the directions. -/
def reflectAll (domain : IndexBox n) (reflect : Fin n → α → α) (x : Index n) (a : α) : α :=
  (List.finRange n).foldl (fun a d => if domain.lower d ≤ x d ∧ x d < domain.upper d then a else reflect d a) a

end Fub
