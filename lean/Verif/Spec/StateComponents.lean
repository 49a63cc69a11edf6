import Verif.Model.StateComponents

/-! # The components of a state in the order of its variables -/

namespace Fub

/-- All numbers of one variable. -/
def CompVar.entries {K : Type} : CompVar K → List K
  | .scalar x => [x]
  | .vector xs => xs

/-- All numbers of a state, variable after variable. -/
def allComponents {K : Type} (vs : List (CompVar K)) : List K := vs.flatMap CompVar.entries

/-- Two states have the same variables with the same depths. -/
def SameDepths {K : Type} (vs ws : List (CompVar K)) : Prop :=
  vs.map (fun v => v.entries.length) = ws.map (fun v => v.entries.length)

end Fub
