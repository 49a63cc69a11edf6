import Verif.Model.SamraiView
import Mathlib.Algebra.BigOperators.Fin

/-!
# Specification for the SAMRAI views
-/

namespace Fub

/-- Column-major offset: the first coordinate runs fastest. -/
def columnMajor : {d : ℕ} → (Fin d → ℕ) → Index d → ℤ
  | 0, _, _ => 0
  | _ + 1, n, i => i 0 + (n 0 : ℤ) * columnMajor (Fin.tail n) (Fin.tail i)

/-- How SAMRAI stores an array: component after component, each of them column-major over the box. -/
def samElem {d : ℕ} (a : SamArray d) (i : Index d) (k : ℤ) : ℤ :=
  a.base + columnMajor a.cells (fun e => i e - a.lo e) + k * ((∏ e, a.cells e : ℕ) : ℤ)

/-- The index is in the box of the array. -/
def SamArray.Has {d : ℕ} (a : SamArray d) (i : Index d) : Prop := ∀ e, a.lo e ≤ i e ∧ i e ≤ a.up e

/-- The cells the update should write: one layer less than the array in the direction of the update. -/
def SamArray.Updated {d : ℕ} (a : SamArray d) (dir : Fin d) (i : Index d) : Prop :=
  a.Has i ∧ a.lo dir + 1 ≤ i dir ∧ i dir ≤ a.up dir - 1

/-- Invariant of the variable database: every id below the next one belongs to at most one pair, and pairs have registered variables. -/
structure SamDb.Ok (db : SamDb) : Prop where
  below : ∀ n c id, db.ids n c = some id → id < db.next
  inj : ∀ n c n' c' id, db.ids n c = some id → db.ids n' c' = some id → n = n' ∧ c = c'
  known : ∀ n c id, db.ids n c = some id → db.vars n ≠ none

end Fub
