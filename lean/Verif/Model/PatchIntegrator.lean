import Mathlib.Algebra.Field.Basic
import Mathlib.Order.WithBot
import Mathlib.Data.Nat.Cast.Order.Basic
import Verif.Model.Layout

/-!
Patch updates and flux sweeps on memory, sequential and vectorised.

Memory maps addresses to numbers. A view with several variables is a list of one view per scalar component (momentum
vectors and species arrays are listed component by component). The SIMD width is an arbitrary number `w`; a vector operation is the
scalar operation on every lane: it first reads all lanes and then stores all lanes.
-/

namespace Fub
variable {K : Type}

/-- Memory: a number at every address. Serves the model of /repo/src/HyperbolicPatchIntegrator.cpp:104. -/
abbrev Mem (K : Type) := Int → K

/-- One application of a kernel: the addresses it reads and the addresses it writes. Serves the model of /repo/src/HyperbolicPatchIntegrator.cpp:47-52. -/
structure CellOp where
  srcs : List Int
  dsts : List Int
deriving DecidableEq, Repr

/-- Stores values at addresses, one after the other (`Store`). /repo/include/fub/State.hpp (`Store`), /repo/src/HyperbolicPatchIntegrator.cpp:104 -/
def writeList (m : Mem K) : List Int → List K → Mem K
  | a :: as, x :: xs => writeList (Function.update m a x) as xs
  | _, _ => m

/-- Loads, applies the kernel and stores. Serves the model of /repo/src/HyperbolicPatchIntegrator.cpp:88-106. -/
def runOp (F : List K → List K) (m : Mem K) (op : CellOp) : Mem K := writeList m op.dsts (F (op.srcs.map m))

/-- The vector version: all lanes are loaded from `m` before any lane is stored.
/repo/src/HyperbolicPatchIntegrator.cpp:47-52, /repo/include/fub/flux_method/FluxMethod.hpp:272-277 -/
def runLanes (F : List K → List K) (m : Mem K) (ops : List CellOp) : Mem K :=
  ops.foldl (fun m' op => writeList m' op.dsts (F (op.srcs.map m))) m

/-- The operations of the first `k` lanes, at the given pointers. Serves the model of /repo/src/HyperbolicPatchIntegrator.cpp:36-62. -/
def lanes (srcs dsts : List Int) (k : Nat) : List CellOp :=
  (List.range k).map fun j : Nat => ⟨srcs.map fun a => a + (j : Int), dsts.map fun a => a + (j : Int)⟩

/-- The chunked loop over one row: full vectors while at least `w` elements are left, then one vector whose lanes are masked by the number of
remaining elements. /repo/src/HyperbolicPatchIntegrator.cpp:36-62, /repo/include/fub/flux_method/FluxMethod.hpp:266-291 -/
def simdRow (F : List K → List K) (w : Nat) (hw : 0 < w) (m : Mem K) (srcs dsts : List Int) (n : Nat) : Mem K :=
  if w ≤ n then
    simdRow F w hw (runLanes F m (lanes srcs dsts w)) (srcs.map fun a => a + (w : Int)) (dsts.map fun a => a + (w : Int)) (n - w)
  else runLanes F m (lanes srcs dsts n)
termination_by n
decreasing_by omega

/-- The kernel `prev + dt_dx * (f_left - f_right)`. /repo/src/HyperbolicPatchIntegrator.cpp:51, 103 -/
def consKernel [Field K] (dtdx : K) : List K → List K
  | [u, fl, fr] => [u + dtdx * (fl - fr)]
  | _ => []

/-- Sequential `UpdateConservatively` on views with `n` space dimensions and the component as last dimension.
/repo/src/HyperbolicPatchIntegrator.cpp:88-106 -/
def updateSeq [Field K] {n : Nat} (next prev flux : PatchView (n + 1)) (dt dx : K) (d : Fin n) (m : Mem K) : Mem K :=
  (forEachIndex next.box).foldl (fun m i =>
    runOp (consKernel (dt / dx)) m ⟨[prev.addr i, flux.addr i, flux.addr (shift i d.castSucc 1)], [next.addr i]⟩) m

/-- The calls of the row function `ForEachRow` makes for one component. /repo/src/HyperbolicPatchIntegrator.cpp:70-84 -/
def updateRows {n : Nat} (fuel : Nat) (next prev flux : PatchView (n + 1)) (d : Fin n) (comp : Int) : Option (List (List RowRef)) :=
  let facesL := next.box
  let facesR := facesL.grow d.castSucc (-1) 1
  forEachRow fuel [(next.sliceLast comp).mds, (prev.sliceLast comp).mds, ((flux.subview facesL).sliceLast comp).mds,
    ((flux.subview facesR).sliceLast comp).mds]

/-- The row function: `n` is the destination row, whose length decides. /repo/src/HyperbolicPatchIntegrator.cpp:80-83 -/
def updateRowFn [Field K] (w : Nat) (hw : 0 < w) (dtdx : K) (m : Mem K) : List RowRef → Mem K
  | rn :: rs => simdRow (consKernel dtdx) w hw m (rs.map RowRef.start) [rn.start] rn.len
  | [] => m

/-- SIMD `UpdateConservatively`; `none` if the row loop runs out of fuel. /repo/src/HyperbolicPatchIntegrator.cpp:64-86 -/
def updateSimd [Field K] {n : Nat} (fuel w : Nat) (hw : 0 < w) (next prev flux : PatchView (n + 1)) (dt dx : K) (d : Fin n)
    (m : Mem K) : Option (Mem K) :=
  (List.range (next.mds.ext.getD n 0)).foldlM (fun m (comp : Nat) =>
    (updateRows fuel next prev flux d comp).map fun rows => rows.foldl (updateRowFn w hw (dt / dx)) m) m

/-- Sequential `ComputeNumericFluxes` with stencil width `W`: for every face the cells `face - W, ..., face + W - 1` in direction `d` are loaded.
`F` is the base method's `ComputeNumericFlux` on the loaded components. /repo/include/fub/flux_method/FluxMethod.hpp:200-215 -/
def fluxSeq {n : Nat} (F : List K → List K) (W : Nat) (flux : PatchView n) (fluxes states : List (PatchView n)) (d : Fin n) (m : Mem K) :
    Mem K :=
  (forEachIndex flux.box).foldl (fun m face =>
    let cell0 := shift face d (-(W : Int))
    runOp F m ⟨(List.range (2 * W)).flatMap fun k : Nat => states.map fun v => v.addr (shift cell0 d (k : Int)),
      (flux :: fluxes).map fun v => v.addr face⟩) m

/-- The views handed to `ForEachRow` by the SIMD version: the fluxes and, for every stencil position, the shifted states.
/repo/include/fub/flux_method/FluxMethod.hpp:253-269 -/
def stencilViews {n : Nat} (W : Nat) (fluxbox : IndexBox n) (states : List (PatchView n)) (d : Fin n) : List (PatchView n) :=
  let cellbox := fluxbox.grow d (W : Int) ((W : Int) - 1)
  (List.range (2 * W)).flatMap fun k : Nat => states.map fun v =>
    (v.subview cellbox).subview (cellbox.shrink d (k : Int) (((2 * W - k : Nat) : Int) - 1))

/-- The row function of the SIMD version; the first `nf` rows are the flux components. /repo/include/fub/flux_method/FluxMethod.hpp:270-292 -/
def fluxRowFn (F : List K → List K) (w : Nat) (hw : 0 < w) (nf : Nat) (m : Mem K) (rows : List RowRef) : Mem K :=
  simdRow F w hw m ((rows.drop nf).map RowRef.start) ((rows.take nf).map RowRef.start) ((rows.map RowRef.len).headD 0)

/-- SIMD `ComputeNumericFluxes`; `F` acts on every lane as the scalar method does. /repo/include/fub/flux_method/FluxMethod.hpp:246-293 -/
def fluxSimd {n : Nat} (F : List K → List K) (fuel w : Nat) (hw : 0 < w) (W : Nat) (flux : PatchView n) (fluxes states : List (PatchView n))
    (d : Fin n) (m : Mem K) : Option (Mem K) :=
  (forEachRow fuel (((flux :: fluxes) ++ stencilViews W flux.box states d).map PatchView.mds)).map fun rows =>
    rows.foldl (fluxRowFn F w hw (fluxes.length + 1)) m

/-! ### Stable time step -/

/-- Sequential `ComputeStableDt`: `dtAt i` is the base method's value for the stencil whose first cell is `i`; `S` is the stencil
size. The result is infinite (`⊤`) if the loop is empty. /repo/include/fub/flux_method/FluxMethod.hpp:295-314 -/
def stableDtSeq [LinearOrder K] {n : Nat} (S : Nat) (box : IndexBox n) (d : Fin n) (dtAt : Index n → K) : WithTop K :=
  (forEachIndex (box.shrink d 0 S)).foldl (fun acc i => min (dtAt i : WithTop K) acc) ⊤

/-- One vector of `min_dt`: `acc` has `w` lanes; lane `j` is combined with the value of the `j`-th stencil from `at0` for `j < k`.
/repo/include/fub/flux_method/FluxMethod.hpp:362, 375-379 -/
def minLanes [LinearOrder K] (acc : List (WithTop K)) (vals : List K) : List (WithTop K) :=
  (List.zipWith (fun (a : WithTop K) (x : K) => min a (x : WithTop K)) acc vals) ++ acc.drop vals.length

/-- The chunked loop over the stencil values of one row. /repo/include/fub/flux_method/FluxMethod.hpp:354-379 -/
def minRow [LinearOrder K] (w : Nat) (hw : 0 < w) (acc : List (WithTop K)) (vals : List K) : List (WithTop K) :=
  if w ≤ vals.length then minRow w hw (minLanes acc (vals.take w)) (vals.drop w) else minLanes acc vals
termination_by vals.length
decreasing_by simp; omega

/-- The rows of a box: the indices with the same coordinates except the first, in order. Serves the model of /repo/include/fub/flux_method/FluxMethod.hpp:341-382. -/
def boxRows {n : Nat} (b : IndexBox (n + 1)) : List (List (Index (n + 1))) :=
  (forEachIndex (⟨Fin.tail b.lower, Fin.tail b.upper⟩ : IndexBox n)).map fun j =>
    (loopRange (b.lower 0) (b.upper 0)).map fun x => Fin.cons x j

/-- SIMD `ComputeStableDt`: every row of the box of first stencil cells is processed in chunks, at the end the minimum over the lanes is taken. The
row iteration is taken from its specification (C23). /repo/include/fub/flux_method/FluxMethod.hpp:341-382 -/
def stableDtSimd [LinearOrder K] {n : Nat} (w : Nat) (hw : 0 < w) (S : Nat) (box : IndexBox (n + 1)) (d : Fin (n + 1)) (dtAt : Index (n + 1) → K) :
    WithTop K :=
  ((boxRows (box.shrink d 0 ((S : Int) - 1))).foldl (fun acc row => minRow w hw acc (row.map dtAt)) (List.replicate w ⊤)).foldl min ⊤

/-- `FluxMethodAdapter::ComputeStableDt`: the minimum over the boxes handed out by the AMReX iterator (one per patch, or one per tile of size 8 in the y and z directions
with the OpenMP tags; AMReX grows a tile by ghost cells only where it touches the boundary of its patch). `infinity` stands for the initial
`numeric_limits<double>::max()`. /repo/include/fub/AMReX/FluxMethodAdapter.hpp:69-115 -/
def adapterStableDt [LinearOrder K] {n : Nat} (patchDt : IndexBox n → WithTop K) (boxes : List (IndexBox n)) : WithTop K :=
  boxes.foldl (fun acc b => min acc (patchDt b)) ⊤

end Fub
