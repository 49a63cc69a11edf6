import Verif.Model.Samrai

/-!
# What a user of the SAMRAI backend relies on
-/

namespace Fub
variable {C K : Type}

/-- The ids of a context as registered: one scratch id per data id, flux ids for the leading variables, and no id is used twice. -/
structure SamIds.Registered (ids : SamIds) : Prop where
  one_scratch : ids.scratch.length = ids.data.length
  fluxes : ids.flux.length ≤ ids.scratch.length
  nodup : (ids.data ++ ids.scratch ++ ids.flux).Nodup

/-- Before a step every scratch variable holds, on the elements owned by the level, the values of *its* hierarchy variable. -/
def ScratchLoaded (e : SamEnv C K) (ids : SamIds) (level : ℕ) (before after : SamData C K) : Prop :=
  ∀ j c, j < ids.data.length → e.inside level c = true → after level (ids.scratch.getD j 0) c = before level (ids.data.getD j 0) c

/-- After a step every hierarchy variable holds the values of its scratch variable. -/
def StoredBack (e : SamEnv C K) (ids : SamIds) (level : ℕ) (before after : SamData C K) : Prop :=
  ∀ j c, j < ids.data.length → e.inside level c = true → after level (ids.data.getD j 0) c = before level (ids.scratch.getD j 0) c

end Fub
