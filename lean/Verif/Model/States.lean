import Verif.Model.Layout

/-!
States in memory: how the variables of an equation are laid out in the data of a patch, and how states and arrays of states are loaded
and stored through views and through pointers.

The memory is a function from addresses (counted in `double`s) to values. A state is the list of its components in the order in which
`ForEachComponent` visits them: the variables in order and for each variable its components in order; an array of states is the list of
the lanes for every component. `Complete`, `Conservative` and `Primitive` states differ only in the list of variables.
-/

namespace Fub

/-- The depth of a variable: `ScalarDepth` or the number of components of a vector. /repo/include/fub/State.hpp:118-137 -/
inductive VarDepth where
  | scalar
  | vector (n : Nat)
deriving DecidableEq, Repr

/-- `PatchDataView<double, R, Layout>`: an `mdspan` and its origin, with the rank given by the lengths of the lists.
/repo/include/fub/PatchDataView.hpp:187-200 -/
structure StView where
  mds : MdSpan
  org : List Int
deriving DecidableEq, Repr

namespace StView

/-- Address of `pdv(index)`. /repo/include/fub/PatchDataView.hpp:305-314 -/
def addr (v : StView) (i : List Int) : Int := v.mds.addr (List.zipWith (fun (a b : Int) => a - b) i v.org)

/-- `Subview(box)`. /repo/include/fub/PatchDataView.hpp:267-294 -/
def subview (v : StView) (lo up : List Int) : StView :=
  ⟨v.mds.subspan (List.zipWith (fun (a : Int) (w : Int) => Slice.range a (a + w))
    (List.zipWith (fun (a b : Int) => a - b) lo v.org) (List.zipWith (fun (a b : Int) => a - b) up lo)), lo⟩

end StView

/-- A variable of a `BasicView`: a view of rank `Rank` for a scalar, of rank `Rank + 1` for a vector.
/repo/include/fub/State.hpp:411-447 -/
inductive StVar where
  | scalar (v : StView)
  | vector (v : StView)
deriving DecidableEq, Repr

/-- `MakePatchDataView(fab)`: all components of a Fab with the given data pointer, lowest cell, number of cells in every direction and
number of components. /repo/include/fub/AMReX/ViewFArrayBox.hpp:117-139 -/
def fabView (data : Int) (lo : List Int) (len : List Nat) (nComp : Nat) : StView :=
  ⟨MdSpan.mkLeft data (len ++ [nComp]), lo ++ [0]⟩

/-- The view of one variable which begins at component `counter`; `dim` is `AMREX_SPACEDIM`.
/repo/include/fub/AMReX/ViewFArrayBox.hpp:193-221 -/
def makeVar (dim rank : Nat) (fab : StView) (counter : Nat) : VarDepth → StVar
  | .vector n => .vector ⟨MdSpan.mkLeft (fab.mds.addr (List.replicate dim 0 ++ [(counter : Int)])) (fab.mds.ext.take rank ++ [n]),
      fab.org.take rank ++ [0]⟩
  | .scalar => .scalar ⟨MdSpan.mkLeft (fab.mds.addr (List.replicate dim 0 ++ [(counter : Int)])) (fab.mds.ext.take rank),
      fab.org.take rank⟩

/-- `counter += n_comps`, `counter += 1`. /repo/include/fub/AMReX/ViewFArrayBox.hpp:204, 217 -/
def VarDepth.count : VarDepth → Nat
  | .scalar => 1
  | .vector n => n

/-- `MakeView`: the variables in order. /repo/include/fub/AMReX/ViewFArrayBox.hpp:188-236 -/
def makeView (dim rank : Nat) (fab : StView) : Nat → List VarDepth → List StVar
  | _, [] => []
  | counter, d :: ds => makeVar dim rank fab counter d :: makeView dim rank fab (counter + d.count) ds

/-- `AtComponent` of a vector view. /repo/include/fub/State.hpp:601-625 -/
def atComponent (rank : Nat) (v : StView) (k : Nat) : StView :=
  match v.mds.layout with
  | .stride => ⟨⟨.stride, v.mds.addr (List.replicate rank 0 ++ [(k : Int)]), v.mds.ext.take rank, v.mds.str.take rank⟩, v.org.take rank⟩
  | .left => ⟨MdSpan.mkLeft (v.mds.addr (List.replicate rank 0 ++ [(k : Int)])) (v.mds.ext.take rank), v.org.take rank⟩

/-- The views of the components of a variable: `GetNumberOfComponents` and `AtComponent`. /repo/include/fub/State.hpp:545-555, 588-625 -/
def varComponents (rank : Nat) : StVar → List StView
  | .scalar v => [v]
  | .vector v => (List.range (v.mds.ext.getD rank 0)).map (atComponent rank v)

/-- The views of all components, `ForEachComponent`. /repo/include/fub/State.hpp:631-646 -/
def stComponents (rank : Nat) (vars : List StVar) : List StView := vars.flatMap (varComponents rank)

/-- `Subview(view, box)` and `Shrink`: every variable is restricted to the box, a vector with all its components.
/repo/include/fub/State.hpp:715-738, /repo/include/fub/Equation.hpp:85-105 -/
def varSubview (rank : Nat) (lo up : List Int) : StVar → StVar
  | .scalar v => .scalar (v.subview lo up)
  | .vector v => .vector (v.subview (lo ++ [v.org.getD rank 0]) (up ++ [v.org.getD rank 0 + (v.mds.ext.getD rank 0 : Nat)]))

variable {K : Type}

/-- Writes of a list of values, in order. Serves the model of /repo/include/fub/State.hpp:673-707. -/
def memWrites (mem : Int → K) (ws : List (Int × K)) : Int → K := ws.foldl (fun m w => Function.update m w.1 w.2) mem

/-- `Load(state, view, index)`. /repo/include/fub/State.hpp:648-671 -/
def stLoad (mem : Int → K) (comps : List StView) (index : List Int) : List K := comps.map fun v => mem (v.addr index)

/-- `Store(view, state, index)`. /repo/include/fub/State.hpp:673-707, /repo/include/fub/ext/Eigen.hpp:212-218 -/
def stStore (mem : Int → K) (comps : List StView) (state : List K) (index : List Int) : Int → K :=
  memWrites mem ((comps.map fun v => v.addr index).zip state)

/-- `Load(int_constant<N>, pdv, index)`: the lanes are `stride(0)` apart, also in the branch for `stride(0) == 1`.
/repo/include/fub/ext/Eigen.hpp:144-157 -/
def laneAddrs (N : Nat) (v : StView) (index : List Int) : List Int :=
  (List.range N).map fun l : Nat => v.addr index + (l : Int) * (v.mds.str.getD 0 0 : Nat)

/-- `Load(states, view, index)` of an array of states. /repo/include/fub/StateArray.hpp:232-301 -/
def stLoadArray (mem : Int → K) (N : Nat) (comps : List StView) (index : List Int) : List (List K) :=
  comps.map fun v => (laneAddrs N v index).map mem

/-- `Store(view, states, index)` of an array of states; the assertion `Extent(0) >= N` is not modelled.
/repo/include/fub/StateArray.hpp:569-594, /repo/include/fub/ext/Eigen.hpp:172-210 -/
def stStoreArray (mem : Int → K) (N : Nat) (comps : List StView) (states : List (List K)) (index : List Int) : Int → K :=
  memWrites mem ((comps.map fun v => laneAddrs N v index).zip states |>.flatMap fun p => p.1.zip p.2)

/-- `Load(state, states, lane)`. /repo/include/fub/StateArray.hpp:229-237 -/
def stLane (states : List (List K)) (l : Nat) : List (Option K) := states.map fun xs => xs[l]?

/-! ### Pointers -/

/-- A variable of a `ViewPointer`: a pointer, for vectors with the stride between the components. The number of components is that of the
state it is used with. /repo/include/fub/State.hpp:746-777 -/
inductive StPtr where
  | scalar (p : Int)
  | vector (p : Int) (stride : Nat) (n : Nat)
deriving DecidableEq, Repr

/-- `Begin(view)`. /repo/include/fub/State.hpp:789-800 -/
def varBegin (rank : Nat) : StVar → StPtr
  | .scalar v => .scalar v.mds.base
  | .vector v => .vector v.mds.base (v.mds.str.getD rank 0) (v.mds.ext.getD rank 0)

/-- `End(view)`. /repo/include/fub/State.hpp:802-813 -/
def varEnd (rank : Nat) : StVar → StPtr
  | .scalar v => .scalar (v.mds.base + v.mds.spanSize)
  | .vector v => .vector (v.mds.base + v.mds.spanSize) (v.mds.str.getD rank 0) (v.mds.ext.getD rank 0)

/-- `Advance(pointer, n)`. /repo/include/fub/State.hpp:860-866 -/
def StPtr.advance (n : Int) : StPtr → StPtr
  | .scalar p => .scalar (p + n)
  | .vector p s k => .vector (p + n) s k

/-- The pointers of the components of a vector: `p += ps.second` after every component.
/repo/include/fub/State.hpp:818-857, /repo/include/fub/StateArray.hpp:262-335, 446-482 -/
def ptrLoop (s : Nat) : Nat → Int → List Int
  | 0, _ => []
  | n + 1, p => p :: ptrLoop s n (p + s)

/-- The pointers of the components of a variable in the loops of `Load` and `Store`. Serves the model of /repo/include/fub/State.hpp:746-777. -/
def StPtr.pointers : StPtr → List Int
  | .scalar p => [p]
  | .vector p s n => ptrLoop s n p

/-- The pointers of all components, `ForEachVariable` over state and pointer. Serves the model of /repo/include/fub/State.hpp:815-858. -/
def stPointers (ps : List StPtr) : List Int := ps.flatMap StPtr.pointers

/-- `Load(state, pointer)`. /repo/include/fub/State.hpp:815-858 -/
def stLoadPtr (mem : Int → K) (ps : List StPtr) : List K := (stPointers ps).map mem

/-- The loop `for (i < n) x(i) = p[i]` of `LoadN`; the other lanes are left as they are. /repo/include/fub/StateArray.hpp:376-381, 389-391 -/
def loadLanes (mem : Int → K) (n : Nat) (p : Int) (x : List K) : List K :=
  (List.range n).foldl (fun (a : List K) (i : Nat) => a.set i (mem (p + (i : Int)))) x

/-- `LoadN(states, pointer, n)`. /repo/include/fub/StateArray.hpp:368-444 -/
def stLoadN (mem : Int → K) (ps : List StPtr) (n : Nat) (states : List (List K)) : List (List K) :=
  List.zipWith (loadLanes mem n) (stPointers ps) states

/-- The writes of `StoreN` for one component. /repo/include/fub/StateArray.hpp:526-533, 537-539 -/
def storeLanes (n : Nat) (p : Int) (x : List K) : List (Int × K) := ((List.range n).map fun i : Nat => p + (i : Int)).zip x

/-- `StoreN(pointer, states, n)`; with `n` the number of lanes it is `Store(pointer, states)`. For vectors the pointer of component `i` is
`ptr.first + i * ptr.second`. /repo/include/fub/StateArray.hpp:446-567 -/
def stStoreN (mem : Int → K) (ps : List StPtr) (n : Nat) (states : List (List K)) : Int → K :=
  memWrites mem (((stPointers ps).zip states).flatMap fun p => storeLanes n p.1 p.2)

/-! ### Rows -/

/-- A variable of a `Row`: a span, or an `mdspan` of rank 2 with strides `1` and the stride of the components and the extents `extent` and
2, whatever the number of components is. /repo/include/fub/StateRow.hpp:50-75 -/
def makeRowVar (extent : Nat) : StPtr → StVar
  | .scalar p => .scalar ⟨⟨.left, p, [extent], [1]⟩, [0]⟩
  | .vector p s _ => .vector ⟨⟨.stride, p, [extent, 2], [1, s]⟩, [0, 0]⟩

/-- `get<0>(End(row)) - get<0>(Begin(row))`, the number of cells for which the loops over a row run; for a first variable which is a vector
the code would compare the pointers in the pairs. /repo/include/fub/StateRow.hpp:80-112, /repo/include/fub/CompleteFromCons.hpp:154-166 -/
def rowCount (ps : List StPtr) (extent : Nat) : Int :=
  match ps with
  | [] => 0
  | .scalar p :: _ => (p + extent) - p
  | .vector p s _ :: _ => (p + (requiredStride [extent, 2] [1, s] : Nat)) - p

end Fub
