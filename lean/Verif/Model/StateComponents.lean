import Mathlib.Data.List.Basic

/-!
# Access to the components of a state by number

Model of /repo/include/fub/StateUtil.hpp:26-84 for complete states, whose depths both overloads of `GetComponent` ask for.
-/

namespace Fub

/-- A variable of a state: a number, or an array of them whose depth (possibly zero) is its length. -/
inductive CompVar (K : Type) where
  | scalar (x : K)
  | vector (xs : List K)

variable {K : Type}

/-- The calls of `ForEachVariable` in `GetComponent`: the running `counter` and the pointer, which is the number of the variable and
the number of the entry in it. `i` is the number of the first variable of the list.
/repo/include/fub/StateUtil.hpp:31-44, 53-66 -/
def componentLoop : List (CompVar K) → Nat → Int → Option (Nat × Nat) → Option (Nat × Nat)
  | [], _, _, p => p
  | .scalar _ :: vs, i, counter, p => componentLoop vs (i + 1) (counter - 1) (if counter = 0 then some (i, 0) else p)
  | .vector xs :: vs, i, counter, p =>
    componentLoop vs (i + 1) (counter - xs.length) (if 0 ≤ counter ∧ counter < xs.length then some (i, counter.toNat) else p)

/-- Reading through the pointer. -/
def componentLoad (vs : List (CompVar K)) (p : Nat × Nat) : Option K :=
  match vs[p.1]? with
  | some (.scalar x) => if p.2 = 0 then some x else none
  | some (.vector xs) => xs[p.2]?
  | none => none

/-- Writing through the pointer. -/
def CompVar.write (k : Nat) (v : K) : CompVar K → CompVar K
  | .scalar x => if k = 0 then .scalar v else .scalar x
  | .vector xs => .vector (xs.set k v)

/-- `GetComponent(eq, s, ncomp)` for reading; `none` is the failing assertion. /repo/include/fub/StateUtil.hpp:26-47 -/
def getComponent (vs : List (CompVar K)) (ncomp : Int) : Option K :=
  (componentLoop vs 0 ncomp none).bind (componentLoad vs)

/-- `GetComponent(eq, s, ncomp) = v`; `none` is the failing assertion. /repo/include/fub/StateUtil.hpp:49-69 -/
def setComponent (vs : List (CompVar K)) (ncomp : Int) (v : K) : Option (List (CompVar K)) :=
  (componentLoop vs 0 ncomp none).map fun p => vs.modify p.1 (CompVar.write p.2 v)

/-- The calls of `ForEachVariable` in `GetNumberOfComponents`, /repo/include/fub/StateUtil.hpp:77-81 -/
def countComponents (counter : Int) : CompVar K → Int
  | .scalar _ => counter + 1
  | .vector xs => counter + xs.length

/-- `GetNumberOfComponents(eq, s)`, /repo/include/fub/StateUtil.hpp:72-84 -/
def componentCount (vs : List (CompVar K)) : Int := vs.foldl countComponents 0

end Fub
