import Verif.Model.Layout
import Verif.Spec.IndexBox

namespace Fub

/-- A multi-index is in range for the extents: as many coordinates as extents and `0 <= i[r] < ext[r]`. -/
def InRange (ext : List Nat) (is : List Int) : Prop := List.Forall₂ (fun (e : Nat) (i : Int) => 0 ≤ i ∧ i < e) ext is

/-- The rows, planes, ... of a strided array do not overlap: `m <= str[0]` and `ext[r] * str[r] <= str[r+1]`. -/
def NestedStrides (m : Nat) : List Nat → List Nat → Prop
  | [], [] => True
  | e :: es, s :: ss => m ≤ s ∧ NestedStrides (e * s) es ss
  | _, _ => False

/-- A slice that is valid for a dimension with extent `e`. -/
def Slice.Valid (e : Nat) : Slice → Prop
  | all => True
  | idx i => 0 ≤ i ∧ i < e
  | range a b => 0 ≤ a ∧ a ≤ b ∧ b ≤ e

/-- The extents of the selection: one per `all` and range slice. -/
def selectedExtents : List Nat → List Slice → List Nat
  | e :: es, .all :: ss => e :: selectedExtents es ss
  | _ :: es, .idx _ :: ss => selectedExtents es ss
  | _ :: es, .range a b :: ss => (b - a).toNat :: selectedExtents es ss
  | _, _ => []

/-- The index in the original array of the element with index `js` in the selection. -/
def selectIndex : List Slice → List Int → List Int
  | .all :: ss, j :: js => j :: selectIndex ss js
  | .idx i :: ss, js => i :: selectIndex ss js
  | .range a _ :: ss, j :: js => (a + j) :: selectIndex ss js
  | _, _ => []

/-- The addresses of the elements of a span, in order. -/
def Span.elems (s : Span) : List Int := (List.range s.size).map fun k : Nat => s.data + (k : Int)

/-- Shape of a well-formed view: as many extents and strides as dimensions. -/
def PatchView.WF {n : Nat} (v : PatchView n) : Prop := v.mds.ext.length = n ∧ v.mds.str.length = n

/-- The rows of a list of views of rank 1, 2 or 3, in the order of `ForEachIndex`: one entry per `(j, l)`, and in it for every view the row of
the length of the first view that starts at the element `(0, j, l)`. -/
def rowsOf (v : MdSpan) (views : List MdSpan) : List (List RowRef) :=
  let len := v.ext.getD 0 0
  match v.ext.length with
  | 1 => [views.map fun w => ⟨w.addr [0], len⟩]
  | 2 => (List.range (v.ext.getD 1 0)).map fun j : Nat => views.map fun w => ⟨w.addr [0, (j : Int)], len⟩
  | _ => (List.range (v.ext.getD 2 0)).flatMap fun l : Nat => (List.range (v.ext.getD 1 0)).map fun j : Nat =>
      views.map fun w => ⟨w.addr [0, (j : Int), (l : Int)], len⟩

end Fub
