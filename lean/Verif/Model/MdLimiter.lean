import Mathlib.Algebra.Order.Field.Basic
import Mathlib.Data.List.Range

/-!
Model of the gradients and of the multi-dimensional slope limiter of the cut-cell method:
/repo/src/cutcell_method/AnyMdLimiter.cpp, /repo/include/fub/cutcell_method/MdGradients.hpp and the centroids of /repo/include/fub/CutCellData.hpp.
Exact arithmetic. Linear systems with two unknowns are solved by Cramer's rule instead of a QR decomposition; least squares problems by the normal equations.
-/

namespace Fub

variable {K : Type} [Field K]

/-- `a.dot(b)` of two vectors. (Eigen). Serves the model of /repo/src/cutcell_method/AnyMdLimiter.cpp:84-94. -/
def dot2 (a b : K × K) : K := a.1 * b.1 + a.2 * b.2

/-- `A_k.determinant()` of the matrix with rows `a` and `b`. (Eigen). Serves the model of /repo/src/cutcell_method/AnyMdLimiter.cpp:60-65. -/
def det2 (a b : K × K) : K := a.1 * b.2 - a.2 * b.1

/-- The multiplier of row `t` in `(A_k)^T lambda = c`, where `A_k` has the rows `t` and `o`. /repo/src/cutcell_method/AnyMdLimiter.cpp:60-65 -/
def lpLambda (c t o : K × K) : K := det2 c o / det2 t o

/-- The direction `p` with `t · p = 1` and `o · p = 0`. /repo/src/cutcell_method/AnyMdLimiter.cpp:77-79 -/
def lpDir (t o : K × K) : K × K := (o.2 / det2 t o, -o.1 / det2 t o)

variable [LinearOrder K]

/-- One turn of the search for the step length; `none` stands for the initial value `numeric_limits::max()` (simplified: every candidate is smaller). /repo/src/cutcell_method/AnyMdLimiter.cpp:84-94 -/
def lpSearchStep (A : ℕ → K × K) (b : ℕ → K) (x p : K × K) (keep : ℕ) (acc : Option (ℕ × K)) (i : ℕ) : Option (ℕ × K) :=
  let ap := dot2 (A i) p
  if ap < 0 then
    let y := (b i - dot2 (A i) x) / ap
    if (∀ q, acc = some q → y < q.2) ∧ det2 (A keep) (A i) ≠ 0 then some (i, y) else acc
  else acc

/-- The search for the step length over all rows. /repo/src/cutcell_method/AnyMdLimiter.cpp:81-94 -/
def lpSearch (A : ℕ → K × K) (b : ℕ → K) (m : ℕ) (x p : K × K) (keep : ℕ) : Option (ℕ × K) :=
  (List.range m).foldl (lpSearchStep A b x p keep) none

/-- The result of the solver: a point, the exception, or a failed assertion. Serves the model of /repo/src/cutcell_method/AnyMdLimiter.cpp:49-106. -/
inductive LPResult (K : Type) where
  | optimal (x : K × K)
  | maxIter
  | assertFail

/-- `SolveLinearOptimizationProblem` from a working set `(w0, w1)` and a point. /repo/src/cutcell_method/AnyMdLimiter.cpp:49-106 -/
def lpSolve (A : ℕ → K × K) (b : ℕ → K) (m : ℕ) (c : K × K) : ℕ → ℕ → ℕ → K × K → LPResult K
  | 0, _, _, _ => .maxIter
  | n + 1, w0, w1, x =>
    if det2 (A w0) (A w1) = 0 then .assertFail
    else
      let l0 := lpLambda c (A w0) (A w1)
      let l1 := lpLambda c (A w1) (A w0)
      if 0 ≤ l0 ∧ 0 ≤ l1 then .optimal x
      else if l0 < l1 then
        let p := lpDir (A w0) (A w1)
        match lpSearch A b m x p w1 with
        | none => .assertFail
        | some (i, al) => if i = w0 then .assertFail else lpSolve A b m c n i w1 (x.1 + al * p.1, x.2 + al * p.2)
      else
        let p := lpDir (A w1) (A w0)
        match lpSearch A b m x p w0 with
        | none => .assertFail
        | some (i, al) => if i = w1 then .assertFail else lpSolve A b m c n w0 i (x.1 + al * p.1, x.2 + al * p.2)

/-- The two constraints of a neighbour with centroid offset `d` and difference of values `du`. /repo/src/cutcell_method/AnyMdLimiter.cpp:208-227 -/
def limRows (D : K × K) (nb : (K × K) × K) : List ((K × K) × K) :=
  let a := (nb.1.1 * D.1, nb.1.2 * D.2)
  if nb.2 < 0 then [((a.1, a.2), nb.2), ((-a.1, -a.2), 0)] else [((-a.1, -a.2), -nb.2), ((a.1, a.2), 0)]

/-- All constraints. /repo/src/cutcell_method/AnyMdLimiter.cpp:187-227 -/
def limConstraints (D : K × K) (nbs : List ((K × K) × K)) : List ((K × K) × K) :=
  [((1, 0), 0), ((0, 1), 0), ((-1, 0), -1), ((0, -1), -1)] ++ nbs.flatMap (limRows D)

/-- The limiter of one cell from the gradient and the connected neighbours. /repo/src/cutcell_method/AnyMdLimiter.cpp:172-233 -/
def limSolve (D : K × K) (nbs : List ((K × K) × K)) : LPResult K :=
  let rows := limConstraints D nbs
  lpSolve (fun i => (rows.getD i ((0, 0), 0)).1) (fun i => (rows.getD i ((0, 0), 0)).2) rows.length (-|D.1|, -|D.2|) 100 0 1 (0, 0)

/-- The geometry of the cut cells as far as it is used here: volume fractions, volume centroids, boundary centroids, the normals (`GetBoundaryNormal`, which is minus the stored normal), face fractions in both directions.
/repo/include/fub/CutCellData.hpp:48-75, /repo/src/CutCellData.cpp:90-139 -/
structure EbGeom (K : Type) where
  vol : ℤ → ℤ → K
  vc : ℤ → ℤ → K × K
  bc : ℤ → ℤ → K × K
  nrm : ℤ → ℤ → K × K
  faceX : ℤ → ℤ → K
  faceY : ℤ → ℤ → K

/-- `GetAbsoluteVolumeCentroid`. /repo/include/fub/CutCellData.hpp:149-160 -/
def absCentroid (g : EbGeom K) (dx : K × K) (i j : ℤ) : K × K :=
  (((i : K) + (g.vc i j).1) * dx.1 + 1 / 2 * dx.1, ((j : K) + (g.vc i j).2) * dx.2 + 1 / 2 * dx.2)

/-- `GetAbsoluteBoundaryCentroid`. /repo/include/fub/CutCellData.hpp:162-173 -/
def absBoundary (g : EbGeom K) (dx : K × K) (i j : ℤ) : K × K :=
  (((i : K) + (g.bc i j).1) * dx.1 + 1 / 2 * dx.1, ((j : K) + (g.bc i j).2) * dx.2 + 1 / 2 * dx.2)

/-- `IsConnected` of the cell `i` and the cell `j`. /repo/src/cutcell_method/AnyMdLimiter.cpp:121-140 -/
def isConnected (g : EbGeom K) (i j : ℤ × ℤ) : Bool :=
  if i ≠ j ∧ g.vol j.1 j.2 > 0 then
    let diff := ((j.1 - i.1 : ℤ), (j.2 - i.2 : ℤ))
    if diff.1 ^ 2 + diff.2 ^ 2 ≠ 1 then false
    else
      let xI := g.vc i.1 i.2
      let xJ := ((diff.1 : K) + (g.vc j.1 j.2).1, (diff.2 : K) + (g.vc j.1 j.2).2)
      let n := g.nrm i.1 i.2
      decide (dot2 n (xJ.1 - xI.1, xJ.2 - xI.2) ≥ dot2 n (g.bc i.1 i.2))
  else false

/-- `Neighborhood(index, 1)` in the order of `ForEachIndex`. /repo/src/cutcell_method/AnyMdLimiter.cpp:168, 180 -/
def neighborhood (i : ℤ × ℤ) : List (ℤ × ℤ) :=
  [(i.1 - 1, i.2 - 1), (i.1, i.2 - 1), (i.1 + 1, i.2 - 1), (i.1 - 1, i.2), (i.1, i.2), (i.1 + 1, i.2), (i.1 - 1, i.2 + 1), (i.1, i.2 + 1), (i.1 + 1, i.2 + 1)]

/-- The neighbours that enter the constraints, with centroid offset and difference of values. /repo/src/cutcell_method/AnyMdLimiter.cpp:177-185, 212-214 -/
def limNeighbors (g : EbGeom K) (dx : K × K) (u : ℤ → ℤ → K) (i : ℤ × ℤ) : List ((K × K) × K) :=
  ((neighborhood i).filter (isConnected g i)).map fun j =>
    (((absCentroid g dx j.1 j.2).1 - (absCentroid g dx i.1 i.2).1, (absCentroid g dx j.1 j.2).2 - (absCentroid g dx i.1 i.2).2), u j.1 j.2 - u i.1 i.2)

/-- `LinearOptimizationLimiter::LimitGradientsAtIndex`: the limited gradient of the cell, `none` for an exception or a failed assertion. /repo/src/cutcell_method/AnyMdLimiter.cpp:162-238 -/
def limitGradient (g : EbGeom K) (dx : K × K) (u : ℤ → ℤ → K) (i : ℤ × ℤ) (D : K × K) : Option (K × K) :=
  match limSolve D (limNeighbors g dx u i) with
  | .optimal l => some (l.1 * D.1, l.2 * D.2)
  | .maxIter => none
  | .assertFail => none

omit [LinearOrder K] in
variable [DecidableEq K] in
/-- The least squares gradient from offsets and differences; `none` if the offsets do not span the plane (not modelled). /repo/include/fub/cutcell_method/MdGradients.hpp:249-277 -/
def lsqGradient (pts : List ((K × K) × K)) : Option (K × K) :=
  let sxx := (pts.map fun q => q.1.1 * q.1.1).sum
  let sxy := (pts.map fun q => q.1.1 * q.1.2).sum
  let syy := (pts.map fun q => q.1.2 * q.1.2).sum
  let bx := (pts.map fun q => q.1.1 * q.2).sum
  let by' := (pts.map fun q => q.1.2 * q.2).sum
  let d := sxx * syy - sxy * sxy
  if d = 0 then none else some ((syy * bx - sxy * by') / d, (sxx * by' - sxy * bx) / d)

/-- A neighbour of a cut cell: face fraction, volume fraction, direction (`true` for x), index. /repo/include/fub/cutcell_method/MdGradients.hpp:103-118 -/
structure GradNb (K : Type) where
  beta : K
  alpha : K
  dirX : Bool
  idx : ℤ × ℤ

/-- The order used for sorting the neighbours. /repo/include/fub/cutcell_method/MdGradients.hpp:120-122 -/
def nbCmp (a b : GradNb K) : Bool := decide (a.beta ≥ b.beta ∧ a.alpha ≥ b.alpha)

/-- One insertion of `std::sort` for short ranges (insertion sort of libstdc++): to the front, or from the back past all elements the value compares before. (libstdc++ `__insertion_sort`). Serves the model of /repo/include/fub/cutcell_method/MdGradients.hpp:119-173. -/
def stlInsert {α : Type} (cmp : α → α → Bool) (l : List α) (v : α) : List α :=
  match l with
  | [] => [v]
  | h :: t => if cmp v h then v :: h :: t else ((h :: t).reverse.dropWhile (cmp v)).reverse ++ [v] ++ ((h :: t).reverse.takeWhile (cmp v)).reverse

/-- `std::sort` for at most sixteen elements. (libstdc++). Serves the model of /repo/include/fub/cutcell_method/MdGradients.hpp:119-173. -/
def stlSort {α : Type} (cmp : α → α → Bool) (l : List α) : List α := l.foldl (stlInsert cmp) []

/-- The four neighbours of a cell in the order of the code. /repo/include/fub/cutcell_method/MdGradients.hpp:103-118 -/
def gradNbs (g : EbGeom K) (i j : ℤ) : List (GradNb K) :=
  [⟨g.faceX i j, g.vol (i - 1) j, true, (i - 1, j)⟩, ⟨g.faceX (i + 1) j, g.vol (i + 1) j, true, (i + 1, j)⟩,
   ⟨g.faceY i j, g.vol i (j - 1), false, (i, j - 1)⟩, ⟨g.faceY i (j + 1), g.vol i (j + 1), false, (i, j + 1)⟩]

/-- The cells whose values determine the gradient of a cut cell; `none` for a failed assertion. /repo/include/fub/cutcell_method/MdGradients.hpp:119-173 -/
def gradStencil (g : EbGeom K) (i j : ℤ) : Option (List (ℤ × ℤ)) :=
  match stlSort nbCmp (gradNbs g i j) with
  | [a, b, c, d] =>
    if c.beta ≤ 0 then
      if a.beta > 0 ∧ b.beta > 0 ∧ a.dirX ≠ b.dirX then
        some [a.idx, b.idx, if a.dirX then (a.idx.1, b.idx.2) else (b.idx.1, a.idx.2)]
      else none
    else if d.beta > 0 then
      if a.beta > 0 ∧ b.beta > 0 then some [a.idx, b.idx, c.idx, d.idx] else none
    else if a.beta > 0 ∧ b.beta > 0 then some [a.idx, b.idx, c.idx] else none
  | _ => none

/-- The unlimited gradient of a cut cell. /repo/include/fub/cutcell_method/MdGradients.hpp:119-173, 249-277 -/
def cutGradient (g : EbGeom K) (dx : K × K) (u : ℤ → ℤ → K) (i j : ℤ) : Option (K × K) :=
  match gradStencil g i j with
  | none => none
  | some cells => lsqGradient (cells.map fun c =>
      (((absCentroid g dx c.1 c.2).1 - (absCentroid g dx i j).1, (absCentroid g dx c.1 c.2).2 - (absCentroid g dx i j).2), u c.1 c.2 - u i j))

end Fub
