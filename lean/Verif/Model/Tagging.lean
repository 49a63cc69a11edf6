import Verif.Model.IndexBox
import Mathlib.Algebra.Order.Field.Basic
import Mathlib.Algebra.Order.Ring.Abs

/-!
Tagging of cells for refinement. Tags are `char`s in the code; here they are integers without wrap-around (the values that occur are 0 to 3), zero means
"not tagged". A view of tags is a function of the index; an access outside of the view is `none` where the code can do this.
-/

namespace Fub

/-! ### Buffering -/

/-- `data[i] = '\2' - data[i]`; `none` outside of the span. /repo/src/tagging_method/TagBuffer.cpp:33,36 -/
def tagToggle (size : ℤ) (data : ℤ → ℤ) (i : ℤ) : Option (ℤ → ℤ) :=
  if 0 ≤ i ∧ i < size then some (Function.update data i (2 - data i)) else none

/-- The body of the loop in the one-dimensional version. /repo/src/tagging_method/TagBuffer.cpp:31-38 -/
def tagBuffer1Cell (w size : ℤ) (data : ℤ → ℤ) (i : ℤ) : Option (ℤ → ℤ) :=
  if data i = 1 then
    ((loopRange 0 w).foldlM (fun data j => tagToggle size data (i + j)) data).bind fun data =>
      (loopRange 1 (w + 1)).reverse.foldlM (fun data j => tagToggle size data (i - j - 1)) data
  else some data

/-- `TagBuffer::TagCellsForRefinement` in one dimension. /repo/src/tagging_method/TagBuffer.cpp:27-40 -/
def tagBuffer1 (w size : ℤ) (data : ℤ → ℤ) : Option (ℤ → ℤ) :=
  (loopRange w (size - w)).foldlM (tagBuffer1Cell w size) data

/-- The body of the two outer loops in the two-dimensional version, for the cell `(i, j)`. /repo/src/tagging_method/TagBuffer.cpp:49-62 -/
def tagBuffer2Cell (w nx ny : ℤ) (data : ℤ × ℤ → ℤ) (c : ℤ × ℤ) : ℤ × ℤ → ℤ :=
  if data c = 1 ∨ data c = 2 then
    let k0 := max (c.1 - w) 0
    let k1 := min (c.1 + w) nx
    let l0 := max (c.2 - w) 0
    let l1 := min (c.2 + w) ny
    (loopRange l0 l1).foldl (fun data l => (loopRange k0 k1).foldl (fun data k =>
      Function.update data (k, l) (max (data (k, l)) (3 - data (k, l)))) data) data
  else data

/-- `TagBuffer::TagCellsForRefinement` in two dimensions; indices are relative to the lower corner of the view.
/repo/src/tagging_method/TagBuffer.cpp:42-65 -/
def tagBuffer2 (w nx ny : ℤ) (data : ℤ × ℤ → ℤ) : ℤ × ℤ → ℤ :=
  (loopRange 0 ny).foldl (fun data j => (loopRange 0 nx).foldl (fun data i => tagBuffer2Cell w nx ny data (i, j)) data) data

/-- `TagBuffer::TagCellsForRefinement` in three dimensions. /repo/src/tagging_method/TagBuffer.cpp:67-86 -/
def tagBuffer3 (w : ℤ) (box : IndexBox 3) (tags : Index 3 → ℤ) : Index 3 → ℤ :=
  (forEachIndex (((box.shrink 0 w w).shrink 1 w w).shrink 2 w w)).foldl (fun tags c =>
    (forEachIndex ⟨fun d => c d - w, fun d => c d + w⟩).foldl (fun tags i => Function.update tags i (max (tags i) (2 - tags i))) tags) tags

/-! ### Cut cells, boxes and combinations -/

variable {K : Type*} [Field K] [LinearOrder K] [IsStrictOrderedRing K]

/-- `TagCutCells::TagCellsForRefinement`. /repo/src/tagging_method/TagCutCells.cpp:26-35 -/
def tagCutCells {n : ℕ} (tagBox volBox : IndexBox n) (vol : Index n → K) (tags : Index n → ℤ) : Index n → ℤ :=
  (forEachIndex (tagBox.intersect volBox)).foldl (fun tags i => if 0 < vol i ∧ vol i < 1 then Function.update tags i 1 else tags) tags

/-- `TagAllOf::TagCellsForRefinement`: the fold expression calls the methods from left to right. /repo/include/fub/AMReX/tagging_method/TagAllOf.hpp:34-43 -/
def tagAllOf {T : Type*} (methods : List (T → T)) (tags : T) : T := methods.foldl (fun t f => f t) tags

/-- `amrex::Box::refine` for a box with exclusive upper corner. /repo/src/AMReX/tagging_method/ConstantRegion.cpp:35 -/
def refineBox {n : ℕ} (ratio : Index n) (b : IndexBox n) : IndexBox n := ⟨fun d => b.lower d * ratio d, fun d => b.upper d * ratio d⟩

/-- `RefineToLevel`; `ratio l` is `GetRatioToCoarserLevel(l)`. The loop calls it with `level`, not with the loop counter.
/repo/src/AMReX/tagging_method/ConstantRegion.cpp:31-38 -/
def refineToLevel {n : ℕ} (ratio : ℕ → Index n) (level : ℕ) (b : IndexBox n) : IndexBox n :=
  (List.range level).foldl (fun b _ => refineBox (ratio level) b) b

/-- `ConstantBox::TagCellsForRefinement` for one tile; `setVal` is the loop over the cells of the intersection.
/repo/src/AMReX/tagging_method/ConstantRegion.cpp:41-49 -/
def constantBoxTag {n : ℕ} (ratio : ℕ → Index n) (level : ℕ) (coarse tile : IndexBox n) (tags : Index n → ℤ) : Index n → ℤ :=
  (forEachIndex ((refineToLevel ratio level coarse).intersect tile)).foldl (fun tags i => Function.update tags i 1) tags

/-! ### Gradient detector -/

/-- A projection with its tolerance, an element of `conditions_`. /repo/include/fub/tagging_method/GradientDetector.hpp:69-71 -/
structure GradCond (S K : Type*) where
  /-- projection of a state to a number -/
  proj : S → K
  /-- tolerance for the relative difference -/
  tol : K

/-- `abs(a - b) / (abs(a) + abs(b)) > tolerance`; for `a = b = 0` the quotient is not a number and the comparison is false.
/repo/include/fub/tagging_method/GradientDetector.hpp:181-186 -/
def relJumpGt (tol a b : K) : Bool := decide (|a| + |b| ≠ 0 ∧ tol < |a - b| / (|a| + |b|))

/-- The loop over the conditions for one cell. Tags are natural numbers here because of the bitwise or.
/repo/include/fub/tagging_method/GradientDetector.hpp:172-188 -/
def gradCell {S : Type*} (conds : List (GradCond S K)) (sL sM sR : S) (tag : ℕ) : ℕ :=
  conds.foldl (fun tag c =>
    if c.proj sM ≠ c.proj sR ∨ c.proj sM ≠ c.proj sL then
      tag ||| (if relJumpGt c.tol (c.proj sM) (c.proj sL) || relJumpGt c.tol (c.proj sM) (c.proj sR) then 1 else 0)
    else tag) tag

/-- `EmbedInSpace<m>(index)`: the missing coordinates are zero. /repo/include/fub/tagging_method/GradientDetector.hpp:34-45 -/
def embedInSpace {n : ℕ} (m : ℕ) (i : Index n) : Index m := fun d => if h : d.1 < n then i ⟨d.1, h⟩ else 0

/-- Assignment to one cell. Serves the model of /repo/include/fub/tagging_method/GradientDetector.hpp:154-192,194-232. -/
def setAt {α β : Type*} [DecidableEq α] (f : α → β) (i : α) (v : β) : α → β := fun j => if j = i then v else f j

/-- `ScalarGradientDetector_::TagCellsForRefinement`; the overload with volume fractions has `vol = some v` (and `m = n`).
/repo/include/fub/tagging_method/GradientDetector.hpp:154-192,194-232 -/
def gradTag {S : Type*} {n m : ℕ} (conds : List (GradCond S K)) (tagBox : IndexBox m) (stateBox : IndexBox n) (states : Index n → S)
    (vol : Option (Index n → K)) (tags : Index m → ℕ) : Index m → ℕ :=
  (List.finRange n).foldl (fun tags d =>
    (forEachIndex (stateBox.shrink d 1 1)).foldl (fun tags mid =>
      if tagBox.contains (embedInSpace m mid) then
        let left := shift mid d (-1)
        let right := shift mid d 1
        if vol.all (fun v => decide (0 < v left) && decide (0 < v mid) && decide (0 < v right)) then
          setAt tags (embedInSpace m mid) (gradCell conds (states left) (states mid) (states right) (tags (embedInSpace m mid)))
        else tags
      else tags) tags) tags

/-- `(abs(a - b) / (abs(a) + abs(b)) < tolerance).select(tag, 1)` in one lane; for `a = b = 0` the comparison is false.
/repo/include/fub/tagging_method/GradientDetector.hpp:273-276 -/
def selectTag (tol a b : K) (tag : ℕ) : ℕ := if |a| + |b| ≠ 0 ∧ |a - b| / (|a| + |b|) < tol then tag else 1

/-- The loop over the conditions in one lane. /repo/include/fub/tagging_method/GradientDetector.hpp:268-277,288-297 -/
def gradLane {S : Type*} (conds : List (GradCond S K)) (sL sM sR : S) (tag : ℕ) : ℕ :=
  conds.foldl (fun tag c =>
    selectTag c.tol (c.proj sM) (c.proj sR) (selectTag c.tol (c.proj sM) (c.proj sL) tag)) tag

/-- The loop over full vectors of `W` cells of a row with `n` cells. `off` is the distance of the pointers `pR` and `tags_pointer` from the begin of the row;
`pL` and `pM` are not advanced. The registers `sM` and `sR` are handed to the next step. /repo/include/fub/tagging_method/GradientDetector.hpp:263-282 -/
def gradRowLoop {S : Type*} (W : ℕ) (conds : List (GradCond S K)) (rR : ℕ → S) (n off : ℕ) (sM sR : ℕ → S) (tags : ℕ → ℕ) : ℕ × (ℕ → ℕ) :=
  if h : 0 < W ∧ off + W ≤ n then
    let sL := sM
    let sM := sR
    let sR := fun k => rR (off + k)
    gradRowLoop W conds rR n (off + W) sM sR
      (fun k => if off ≤ k ∧ k < off + W then gradLane conds (sL (k - off)) (sM (k - off)) (sR (k - off)) (tags k) else tags k)
  else (off, tags)
termination_by n - off

/-- `ArrayGradientDetector_::TagCellsForRefinement` for one row of `n` cells in the first direction; `x k` is the state of the cell `k - 1`, so that the three
shifted rows are `x`, `x (· + 1)` and `x (· + 2)`. The registers are loaded in front of the loop with the first cells of the left and the middle row.
/repo/include/fub/tagging_method/GradientDetector.hpp:239-300 -/
def gradRow {S : Type*} (W : ℕ) (conds : List (GradCond S K)) (n : ℕ) (x : ℕ → S) (tags : ℕ → ℕ) : ℕ → ℕ :=
  let rL := x
  let rM := fun k => x (k + 1)
  let rR := fun k => x (k + 2)
  let r := gradRowLoop W conds rR n 0 rL rM tags
  fun k => if r.1 ≤ k ∧ k < n then gradLane conds (rL (k - r.1)) (rM (k - r.1)) (rR k) (r.2 k) else r.2 k

end Fub
