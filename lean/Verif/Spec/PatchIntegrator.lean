import Verif.Model.PatchIntegrator
import Verif.Spec.Layout
import Mathlib.Order.Interval.Finset.Basic
import Mathlib.Data.Fintype.Pi
import Mathlib.Algebra.BigOperators.Group.Finset.Basic

namespace Fub

/-- The finite set of indices of a box. -/
def IndexBox.finset {n : Nat} (b : IndexBox n) : Finset (Index n) := Fintype.piFinset fun d => Finset.Ico (b.lower d) (b.upper d)

/-- The layer of a box at coordinate `x` in direction `d`. For a face box these are the faces at one end. -/
def IndexBox.layer {n : Nat} (b : IndexBox n) (d : Fin n) (x : Int) : IndexBox n :=
  ⟨Function.update b.lower d x, Function.update b.upper d (x + 1)⟩

/-- The memory regions of an update do not interfere: different cells of the destination are at different addresses, no destination cell
overlaps with a flux that is read, and a destination cell may only share its memory with the same cell of the source (update in place). -/
structure UpdateNoAlias {n : Nat} (next prev flux : PatchView (n + 1)) (d : Fin n) : Prop where
  inj : ∀ i ∈ next.box.toSet, ∀ j ∈ next.box.toSet, next.addr i = next.addr j → i = j
  flux : ∀ i ∈ next.box.toSet, ∀ j ∈ next.box.toSet, next.addr i ≠ flux.addr j ∧ next.addr i ≠ flux.addr (shift j d.castSucc 1)
  prev : ∀ i ∈ next.box.toSet, ∀ j ∈ next.box.toSet, next.addr i = prev.addr j → i = j

/-- What a conservative update should do to memory: every cell of the destination gets `prev + dt/dx * (left flux - right flux)`, everything
else is untouched. -/
structure IsConservativeUpdate {K : Type} [Field K] {n : Nat} (next prev flux : PatchView (n + 1)) (dt dx : K) (d : Fin n)
    (m m' : Mem K) : Prop where
  cells : ∀ i ∈ next.box.toSet,
    m' (next.addr i) = m (prev.addr i) + dt / dx * (m (flux.addr i) - m (flux.addr (shift i d.castSucc 1)))
  others : ∀ a, (∀ i ∈ next.box.toSet, a ≠ next.addr i) → m' a = m a

/-- The memory regions of a flux sweep do not interfere: every flux component of every face has its own address and none of them is
read as a state. -/
structure FluxNoAlias {n : Nat} (W : Nat) (fluxes states : List (PatchView n)) (box : IndexBox n) (d : Fin n) : Prop where
  inj : ∀ i ∈ box.toSet, ∀ j ∈ box.toSet, ∀ (a b : Nat) (u v : PatchView n), fluxes[a]? = some u → fluxes[b]? = some v →
    u.addr i = v.addr j → i = j ∧ a = b
  states : ∀ i ∈ box.toSet, ∀ j ∈ box.toSet, ∀ u ∈ fluxes, ∀ v ∈ states, ∀ k : Nat, k < 2 * W →
    u.addr i ≠ v.addr (shift j d ((k : Int) - W))

/-- The arguments of the vectorised update as the callers provide them (strided views over arrays with contiguous rows): the previous states are given on the
same box as the next states and no view is empty. -/
structure UpdateViews {n : Nat} (next prev flux : PatchView (n + 1)) : Prop where
  wf : next.WF ∧ prev.WF ∧ flux.WF
  stride : next.mds.layout = .stride ∧ prev.mds.layout = .stride ∧ flux.mds.layout = .stride
  contiguous : next.mds.str.getD 0 0 = 1 ∧ prev.mds.str.getD 0 0 = 1 ∧ flux.mds.str.getD 0 0 = 1
  nested : NestedStrides 1 next.mds.ext next.mds.str
  nonempty : ∀ e ∈ next.mds.ext, 0 < e
  same : prev.origin = next.origin

/-- The arguments of the vectorised flux sweep as the callers provide them. -/
structure FluxViews {n : Nat} (flux : PatchView n) (fluxes states : List (PatchView n)) : Prop where
  rank : flux.mds.ext.length = n
  strides : ∀ u ∈ flux :: fluxes ++ states, u.mds.str.length = n
  contiguous : ∀ u ∈ flux :: fluxes ++ states, u.mds.str.getD 0 0 = 1
  stride : flux.mds.layout = .stride
  nested : NestedStrides 1 flux.mds.ext flux.mds.str
  nonempty : ∀ e ∈ flux.mds.ext, 0 < e
  same : ∀ u ∈ fluxes, u.origin = flux.origin

/-- What a flux sweep should do to memory: at every face the flux components are the method's result for the `2 W` cells around the face, `W` on each
side and ordered from left to right; everything else is untouched. -/
structure IsFluxSweep {K : Type} {n : Nat} (F : List K → List K) (W : Nat) (fluxes states : List (PatchView n)) (box : IndexBox n) (d : Fin n)
    (m m' : Mem K) : Prop where
  faces : ∀ i ∈ box.toSet, fluxes.map (fun v => m' (v.addr i)) =
    F ((List.range (2 * W)).flatMap fun k : Nat => states.map fun v => m (v.addr (shift i d ((k : Int) - W))))
  others : ∀ a, (∀ i ∈ box.toSet, ∀ v ∈ fluxes, a ≠ v.addr i) → m' a = m a

/-- The stencils of `S` cells in direction `d` inside a box, given by their first cell. -/
def stencils {n : Nat} (S : Nat) (box : IndexBox n) (d : Fin n) : Set (Index n) := {i | ∀ k : Nat, k < S → shift i d (k : Int) ∈ box.toSet}

end Fub
