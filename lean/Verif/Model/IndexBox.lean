import Mathlib.Data.Fin.Tuple.Basic
import Mathlib.Order.Interval.Finset.Defs
import Mathlib.Data.Int.Interval

/-!
Index boxes, shifts and index loops.

`std::ptrdiff_t` is modelled by `Int` without wrap-around; a `Direction` that is valid for the rank by `Fin n`
(`Grow`/`Shrink` assert `dir < Rank`, /repo/include/fub/PatchDataView.hpp:119 and 131).
-/

namespace Fub

/-- `Index<Rank>`, an array of `Rank` integers. /repo/include/fub/PatchDataView.hpp:34-35 -/
abbrev Index (n : Nat) := Fin n → Int

/-- `Shift(idx, dir, shift)`. /repo/include/fub/PatchDataView.hpp:37-43 -/
def shift {n : Nat} (i : Index n) (d : Fin n) (s : Int) : Index n := Function.update i d (i d + s)

/-- `LeftTo(idx, dir, shift)`: the cell `shift` places to the left of a face. /repo/include/fub/PatchDataView.hpp:45-49 -/
def leftTo {n : Nat} (i : Index n) (d : Fin n) (s : Int := 1) : Index n := shift i d (-s)

/-- `RightTo(idx, dir, shift)`: the cell `shift` places to the right of a face. /repo/include/fub/PatchDataView.hpp:51-55 -/
def rightTo {n : Nat} (i : Index n) (d : Fin n) (s : Int := 1) : Index n := shift i d (s - 1)

/-- `EmbedIndex(index, dir)`: appends the number of the direction. /repo/include/fub/PatchDataView.hpp:57-65 -/
def embedIndex {n : Nat} (i : Index n) (d : Nat) : Index (n + 1) := Fin.snoc i (d : Int)

/-- `IndexBox<Rank>`: `lower` inclusive, `upper` exclusive. /repo/include/fub/PatchDataView.hpp:67-71 -/
@[ext] structure IndexBox (n : Nat) where
  /-- smallest index -/
  lower : Index n
  /-- one past the largest index -/
  upper : Index n
deriving DecidableEq

namespace IndexBox
variable {n : Nat}

/-- `Contains(b1, b2)` for boxes: componentwise `b1.lower <= b2.lower` and `b2.upper <= b1.upper`.
/repo/include/fub/PatchDataView.hpp:83-89 -/
def containsBox (b1 b2 : IndexBox n) : Bool :=
  (List.finRange n).all (fun d => decide (b1.lower d ≤ b2.lower d)) &&
  (List.finRange n).all (fun d => decide (b2.upper d ≤ b1.upper d))

/-- `Contains(box, index)`: the box contains the one-element box at `index`. /repo/include/fub/PatchDataView.hpp:91-97 -/
def contains (b : IndexBox n) (i : Index n) : Bool := b.containsBox ⟨i, fun d => i d + 1⟩

/-- `Intersect(b1, b2)`. /repo/include/fub/PatchDataView.hpp:99-114 -/
def intersect (b1 b2 : IndexBox n) : IndexBox n :=
  let lower : Index n := fun d => max (b1.lower d) (b2.lower d)
  let upper : Index n := fun d => min (b1.upper d) (b2.upper d)
  ⟨lower, fun d => max (lower d) (upper d)⟩

/-- `Grow(box, dir, {s0, s1})`. /repo/include/fub/PatchDataView.hpp:116-126 -/
def grow (b : IndexBox n) (d : Fin n) (s0 s1 : Int) : IndexBox n :=
  ⟨Function.update b.lower d (b.lower d - s0), Function.update b.upper d (b.upper d + s1)⟩

/-- `Shrink(box, dir, {s0, s1})`. /repo/include/fub/PatchDataView.hpp:128-138 -/
def shrink (b : IndexBox n) (d : Fin n) (s0 s1 : Int) : IndexBox n :=
  ⟨Function.update b.lower d (b.lower d + s0), Function.update b.upper d (b.upper d - s1)⟩

/-- `Embed<Rank>(box, {l, u})`: appends a coordinate. /repo/include/fub/PatchDataView.hpp:140-151 -/
def embed (b : IndexBox n) (l u : Int) : IndexBox (n + 1) := ⟨Fin.snoc b.lower l, Fin.snoc b.upper u⟩

/-- `Project<Rank>(box)`: keeps the first `Rank` coordinates. /repo/include/fub/PatchDataView.hpp:153-161 -/
def project {m : Nat} (h : n ≤ m) (b : IndexBox m) : IndexBox n :=
  ⟨fun d => b.lower (Fin.castLE h d), fun d => b.upper (Fin.castLE h d)⟩

/-- `Neighborhood(i, width)`. /repo/include/fub/PatchDataView.hpp:173-182 -/
def neighborhood (i : Index n) (w : Int) : IndexBox n := ⟨fun d => i d - w, fun d => i d + (w + 1)⟩

end IndexBox

/-- The values of a loop counter `for (i = l; i < u; ++i)`. Serves the model of /repo/include/fub/ForEach.hpp:152-185. -/
def loopRange (l u : Int) : List Int := (List.range (u - l).toNat).map (fun k : Nat => l + (k : Int))

/-- `ForEachIndex(box, f)`: the list of indices `f` is called with, in order. The loop over the last coordinate is the outermost one;
the code is written out for ranks 1 to 4, the model is its recursion over the rank (rank 0, which does not compile, gives the empty
index once). /repo/include/fub/ForEach.hpp:152-185 -/
def forEachIndex : {n : Nat} → IndexBox n → List (Index n)
  | 0, _ => [Fin.elim0]
  | n + 1, b =>
    (loopRange (b.lower (Fin.last n)) (b.upper (Fin.last n))).flatMap fun c =>
      (forEachIndex (⟨Fin.init b.lower, Fin.init b.upper⟩ : IndexBox n)).map fun i => Fin.snoc i c

/-- `ForEachIndex(mapping, f)` for `layout_left` and `layout_stride` mappings, as a function of the extents only: both loop from zero.
/repo/include/fub/ForEach.hpp:74-149 -/
def forEachIndexMapping {n : Nat} (ext : Index n) : List (Index n) := forEachIndex ⟨fun _ => 0, ext⟩

end Fub
