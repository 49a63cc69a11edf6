import Verif.Model.DebugOutput

/-!
# What the debug output promises

Everything that was saved is written once, under names and in directories that tell the data apart.
-/

namespace Fub

/-- The columns of a field: the name of a component with its boxes and values on all levels. -/
def dbgColumns {B D G : Type} (f : DbgField B D G) : List (DbgName × List (B × Option D)) :=
  f.names.zipIdx.map (fun p => (p.1, f.levels.map (fun l => (l.boxes, l.comps[p.2]?))))

/-- Every component has a name. -/
def DbgField.Named {B D G : Type} (f : DbgField B D G) : Prop := ∀ l ∈ f.levels, l.comps.length = f.names.length

/-- No name is a name that occurs twice, followed by an underscore and a number. -/
def NamesFree (names : List DbgName) : Prop := ∀ b ∈ names, 2 ≤ names.count b → ∀ n : Nat, b ++ '_' :: Nat.toDigits 10 n ∉ names

/-- `new` is the name `old`, or `old` with a number; it is `old` itself if that name occurs only once. -/
def NumberedOf (names : List DbgName) (old new : DbgName) : Prop :=
  (names.count old = 1 → new = old) ∧ (new = old ∨ ∃ n : Nat, new = old ++ '_' :: Nat.toDigits 10 n)

end Fub
