import Mathlib.Algebra.BigOperators.Group.List.Basic
import Verif.Model.IndexBox

/-!
Array layouts, sub-arrays, spans and row iteration.

Extents and strides are natural numbers (negative ones are not meaningful in the code either), addresses are integers counted in elements.
A rank `n` array is described by lists of length `n`.
-/

namespace Fub

/-- `offset += is[r] * strides[r]` over all `r`. /repo/include/fub/core/mdspan.hpp:391-394, 462-465, 519-522 -/
def dot (strides : List Nat) (is : List Int) : Int := (List.zipWith (fun (s : Nat) (i : Int) => (s : Int) * i) strides is).sum

/-- `Size_(extents)`. /repo/include/fub/core/mdspan.hpp:282-290 -/
def sizeOfExtents (ext : List Nat) : Nat := ext.prod

/-- `layout_left::mapping::stride(r)`: product of the extents before `r`. /repo/include/fub/core/mdspan.hpp:355-361 -/
def strideLeft (ext : List Nat) (r : Nat) : Nat := (ext.take r).prod

/-- `layout_right::mapping::stride(r)`: product of the extents after `r`. /repo/include/fub/core/mdspan.hpp:427-433 -/
def strideRight (ext : List Nat) (r : Nat) : Nat := (ext.drop (r + 1)).prod

/-- All strides of a `layout_left` mapping; also `layout_stride::mapping::MakeStrides`. /repo/include/fub/core/mdspan.hpp:390, 483-490 -/
def stridesLeft (ext : List Nat) : List Nat := (List.range ext.length).map (strideLeft ext)

/-- All strides of a `layout_right` mapping. /repo/include/fub/core/mdspan.hpp:461 -/
def stridesRight (ext : List Nat) : List Nat := (List.range ext.length).map (strideRight ext)

/-- `layout_left::mapping::operator()`. /repo/include/fub/core/mdspan.hpp:348-350, 384-396 -/
def mapLeft (ext : List Nat) (is : List Int) : Int := dot (stridesLeft ext) is

/-- `layout_right::mapping::operator()`. /repo/include/fub/core/mdspan.hpp:423-425, 455-467 -/
def mapRight (ext : List Nat) (is : List Int) : Int := dot (stridesRight ext) is

/-- `layout_stride::mapping::required_span_size`: the largest `extent(r) * stride(r)`. /repo/include/fub/core/mdspan.hpp:503-509 -/
def requiredStride (ext str : List Nat) : Nat := (List.zipWith (· * ·) ext str).foldr max 0

/-- Which mapping a view uses. `basic_mdspan` is parametrised over it; `PatchDataView` is used with these two.
/repo/include/fub/PatchDataView.hpp:184-185, 355-356 -/
inductive Layout where
  | left
  | stride
deriving DecidableEq, Repr

/-- A `basic_mdspan` with dynamic extents: pointer and mapping. For `layout_left` the strides are those of the mapping.
/repo/include/fub/core/mdspan.hpp:571-573, 708-710 -/
structure MdSpan where
  layout : Layout
  /-- address of the element with index zero -/
  base : Int
  ext : List Nat
  str : List Nat
deriving DecidableEq, Repr

namespace MdSpan

/-- A view with `layout_left` mapping. /repo/include/fub/core/mdspan.hpp:605-606 -/
def mkLeft (base : Int) (ext : List Nat) : MdSpan := ⟨.left, base, ext, stridesLeft ext⟩

/-- Address of the element with the given index, `&mds(is...)`. /repo/include/fub/core/mdspan.hpp:640-653 -/
def addr (m : MdSpan) (is : List Int) : Int := m.base + dot m.str is

/-- `get_span().size()`. /repo/include/fub/core/mdspan.hpp:679-681 -/
def spanSize (m : MdSpan) : Nat :=
  match m.layout with
  | .left => sizeOfExtents m.ext
  | .stride => requiredStride m.ext m.str

end MdSpan

/-- Slice specifiers of `subspan`: `all`, an index, or a half open range. /repo/include/fub/core/mdspan.hpp:738-748 -/
inductive Slice where
  | all
  | idx (i : Int)
  | range (a b : Int)
deriving DecidableEq, Repr

namespace Slice

/-- `IsSliceRange_`. /repo/include/fub/core/mdspan.hpp:744-748 -/
def isRange : Slice → Bool
  | all => true
  | idx _ => false
  | range _ _ => true

/-- `MakeOrigin__`. /repo/include/fub/core/mdspan.hpp:901-908 -/
def origin : Slice → Int
  | all => 0
  | idx i => i
  | range a _ => a

/-- `MapToLength_`. /repo/include/fub/core/mdspan.hpp:927-937 -/
def mapToLength : Slice → Int
  | all => -1
  | idx _ => 0
  | range a b => b - a

/-- `dyn_length[i]`: a negative length is replaced by the extent. /repo/include/fub/core/mdspan.hpp:944-951 -/
def dynLength (e : Nat) (s : Slice) : Int := if s.mapToLength < 0 then (e : Int) else s.mapToLength

end Slice

/-- `SliceRank_`: number of `all` and range slices. /repo/include/fub/core/mdspan.hpp:760-762 -/
def sliceRank (ss : List Slice) : Nat := (ss.filter Slice.isRange).length

/-- `MakeSliceExtents2_`: the positive lengths in order, in an array of size `SliceRank_` that was initialised with zeros.
/repo/include/fub/core/mdspan.hpp:939-961 -/
def sliceExtents (ext : List Nat) (ss : List Slice) : List Nat :=
  let pos := ((List.zipWith Slice.dynLength ext ss).filter (fun l => decide (0 < l))).map Int.toNat
  pos ++ List.replicate (sliceRank ss - pos.length) 0

/-- `MakeSliceArray_`: the strides of the dimensions with a range. /repo/include/fub/core/mdspan.hpp:838-899 -/
def sliceStrides (str : List Nat) (ss : List Slice) : List Nat :=
  ((str.zip ss).filter (fun p => p.2.isRange)).map Prod.fst

/-- `subspan(src, slices...)`. /repo/include/fub/core/mdspan.hpp:964-983 -/
def MdSpan.subspan (m : MdSpan) (ss : List Slice) : MdSpan :=
  ⟨.stride, m.addr (ss.map Slice.origin), sliceExtents m.ext ss, sliceStrides m.str ss⟩

/-- `PatchDataView<T, R, Layout>`: an `mdspan` and the index of its first element. /repo/include/fub/PatchDataView.hpp:187-200 -/
structure PatchView (n : Nat) where
  mds : MdSpan
  origin : Index n

namespace PatchView
variable {n : Nat}

/-- `Box()`. /repo/include/fub/PatchDataView.hpp:254-265 -/
def box (v : PatchView n) : IndexBox n := ⟨v.origin, fun d => v.origin d + ((v.mds.ext.getD d 0 : Nat) : Int)⟩

/-- Address of `view(indices)`. /repo/include/fub/PatchDataView.hpp:305-314 -/
def addr (v : PatchView n) (i : Index n) : Int := v.mds.addr (List.ofFn fun d => i d - v.origin d)

/-- `Subview(box)`: a range slice in every dimension. The assertions `origin <= lower` and `lower <= upper` are preconditions.
/repo/include/fub/PatchDataView.hpp:267-294 -/
def subview (v : PatchView n) (b : IndexBox n) : PatchView n :=
  ⟨v.mds.subspan (List.ofFn fun d =>
    Slice.range (b.lower d - v.origin d) (b.lower d - v.origin d + (b.upper d - b.lower d))), b.lower⟩

/-- `SliceLast(pdv, component)`: fixes the last coordinate; `component` counts from the first element of the view.
/repo/include/fub/PatchDataView.hpp:328-353 -/
def sliceLast (v : PatchView (n + 1)) (comp : Int) : PatchView n :=
  let base := v.mds.addr (List.replicate n 0 ++ [comp])
  let ext := v.mds.ext.take n
  match v.mds.layout with
  | .stride => ⟨⟨.stride, base, ext, v.mds.str.take n⟩, fun d => v.origin d.castSucc⟩
  | .left => ⟨MdSpan.mkLeft base ext, fun d => v.origin d.castSucc⟩

end PatchView

/-! ### Spans -/

/-- `span<T, N>` with a static extent `N > 0` or a dynamic one. /repo/include/fub/core/span.hpp:474-476 and 705-718 -/
structure Span where
  /-- `some N` for a static extent -/
  static : Option Nat
  data : Int
  /-- number of elements; equal to `N` for a static extent -/
  size : Nat
deriving DecidableEq, Repr

namespace Span

/-- The class constant `extent`: `N`, or `dynamic_extent`, which is -1. /repo/include/fub/core/span.hpp:718 -/
def extent (s : Span) : Int := match s.static with
  | some n => n
  | none => -1

/-- `first(count)`. /repo/include/fub/core/span.hpp:306-309 and 823-826 -/
def first (s : Span) (count : Nat) : Span := ⟨none, s.data, count⟩

/-- `first<Count>()`. /repo/include/fub/core/span.hpp:295-297 and 811-814 -/
def firstS (s : Span) (count : Nat) : Span := ⟨some count, s.data, count⟩

/-- `last(count)`; both versions compute with the class constant `extent`. /repo/include/fub/core/span.hpp:331-334 and 848-851 -/
def last (s : Span) (count : Nat) : Span := ⟨none, s.data + (s.extent - count), count⟩

/-- `last<Count>()`. /repo/include/fub/core/span.hpp:320-322 and 836-839 -/
def lastS (s : Span) (count : Nat) : Span := ⟨some count, s.data + ((s.size : Int) - count), count⟩

/-- `subspan(offset, count)`; `none` stands for `dynamic_extent`. /repo/include/fub/core/span.hpp:378-385 and 880-887 -/
def subspan (s : Span) (offset : Nat) (count : Option Nat) : Span := ⟨none, s.data + offset, count.getD (s.size - offset)⟩

end Span

/-! ### Row iteration -/

/-- A row that is handed to the function: start address and length. `ToRow`. /repo/include/fub/StateRow.hpp:136-146 -/
structure RowRef where
  start : Int
  len : Nat
deriving DecidableEq, Repr

/-- The addresses of the elements of a row, a contiguous span. Serves the model of /repo/include/fub/StateRow.hpp:136-146. -/
def RowRef.elems (r : RowRef) : List Int := (List.range r.len).map fun k : Nat => r.start + (k : Int)

/-- Makes the rows of all views for the current pointers. /repo/include/fub/StateRow.hpp:176, 185, 204 -/
def toRows (len : Nat) (ps : List Int) : List RowRef := ps.map fun p => ⟨p, len⟩

/-- Advances all pointers by their strides. /repo/include/fub/StateRow.hpp:187-193, 206-218 -/
def advancePtrs (ps : List Int) (strides : List Nat) : List Int := List.zipWith (fun (p : Int) (s : Nat) => p + (s : Int)) ps strides

/-- The `while (n >= stride)` loop of rank 2; `last` is the end pointer of the first view. It returns `none` when it runs out of fuel.
/repo/include/fub/StateRow.hpp:183-195 -/
def rowLoop2 (len : Nat) (last : Int) (strides : List Nat) : Nat → List Int → Option (List (List RowRef))
  | 0, _ => none
  | fuel + 1, ps =>
    match ps, strides with
    | p :: _, s :: _ =>
      if last - p ≥ (s : Int) then (rowLoop2 len last strides fuel (advancePtrs ps strides)).map (toRows len ps :: ·)
      else some []
    | _, _ => some []

/-- `count` rows, advancing by `strides` after each. Inner loop of rank 3. /repo/include/fub/StateRow.hpp:203-212 -/
def rowLoopN (len : Nat) (strides : List Nat) : Nat → List Int → List (List RowRef)
  | 0, _ => []
  | k + 1, ps => toRows len ps :: rowLoopN len strides k (advancePtrs ps strides)

/-- Outer loop of rank 3. /repo/include/fub/StateRow.hpp:201-219 -/
def planeLoop (len : Nat) (ny : Nat) (stridesY stridesZ : List Nat) : Nat → List Int → List (List RowRef)
  | 0, _ => []
  | k + 1, ps => rowLoopN len stridesY ny ps ++ planeLoop len ny stridesY stridesZ k (advancePtrs ps stridesZ)

/-- `ForEachRow(views, f)`: the list of calls of `f`, each with one row per view. The first view decides about the number and the length of
rows. `fuel` bounds the loop of rank 2 only. Views of rank 0 or more than 3 are not modelled. /repo/include/fub/StateRow.hpp:171-221 -/
def forEachRow (fuel : Nat) (views : List MdSpan) : Option (List (List RowRef)) :=
  match views with
  | [] => some []
  | v :: _ =>
    let firsts := views.map MdSpan.base
    let len := v.ext.getD 0 0
    match v.ext.length with
    | 1 => some [toRows len firsts]
    | 2 => rowLoop2 len (v.base + v.spanSize) (views.map fun w => w.str.getD 1 0) fuel firsts
    | _ => some (planeLoop len (v.ext.getD 1 0) (views.map fun w => w.str.getD 1 0) (views.map fun w => w.str.getD 2 0) (v.ext.getD 2 0) firsts)

end Fub
