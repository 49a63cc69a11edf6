import Mathlib.Analysis.Real.Sqrt
import Mathlib.Analysis.SpecialFunctions.Trigonometric.Basic
import Mathlib.Algebra.BigOperators.Group.Finset.Basic
import Mathlib.Data.Fin.VecNotation
import Mathlib.Order.WithBot

/-!
# Model of the implicit geometries

Source: `/repo/src/geometry/*.cpp`, `/repo/include/fub/geometry/*.hpp`.

Simplifications: floating point numbers are real numbers; an infinite distance is `⊤`. A geometry is the function `ComputeDistanceTo` (or `operator()`).
Undefined behaviour (access outside of an array, dereferenced end iterator) is `none`.
-/

namespace Fub

/-- A point of the `d`-dimensional space. Serves the model of /repo/src/geometry/Union.cpp:39-47. -/
abbrev Pt (d : ℕ) := Fin d → ℝ

/-- The scalar product. Serves the model of /repo/src/geometry/Halfspace.cpp:25-30. -/
noncomputable def dotP {d : ℕ} (x y : Pt d) : ℝ := ∑ i, x i * y i

/-- The Euclidean norm. Serves the model of /repo/src/geometry/Polygon.cpp:36-57. -/
noncomputable def normP {d : ℕ} (x : Pt d) : ℝ := Real.sqrt (dotP x x)

/-- Eigen's `normalized`: a zero vector is returned as it is. Serves the model of /repo/src/geometry/Halfspace.cpp:25-30. -/
noncomputable def normalizedP {d : ℕ} (x : Pt d) : Pt d := if 0 < dotP x x then fun i => x i / normP x else x

/-! ### Combinators -/

/-- `PolymorphicUnion::ComputeDistanceTo`; `lowest` stands for the lowest double. /repo/src/geometry/Union.cpp:39-47 -/
noncomputable def unionGeom {d : ℕ} (lowest : ℝ) (geoms : List (Pt d → ℝ)) (x : Pt d) : ℝ := geoms.foldl (fun m g => max m (g x)) lowest

/-- `Invert::ComputeDistanceTo` for a base of the same dimension. /repo/include/fub/geometry/Invert.hpp:39-65 -/
noncomputable def invertGeom {d : ℕ} (g : Pt d → ℝ) (x : Pt d) : ℝ := -g x

/-- `Invert::ComputeDistanceTo` in 3-D of a 2-D base: the last coordinate is dropped. /repo/include/fub/geometry/Invert.hpp:44-47 -/
noncomputable def invertGeom32 (g : Pt 2 → ℝ) (x : Pt 3) : ℝ := -g ![x 0, x 1]

/-- `Halfspace`. /repo/src/geometry/Halfspace.cpp:25-30 -/
noncomputable def halfspace (dir : Pt 3) (offset : ℝ) (x : Pt 3) : ℝ := dotP x (normalizedP dir) - offset

/-- `RotateAroundPoint`. /repo/include/fub/geometry/RotateAroundPoint.hpp:33-45 -/
noncomputable def rotateAroundPoint (g : Pt 2 → ℝ) (angle : ℝ) (x0 : Pt 2) (x : Pt 2) : ℝ :=
  let c := Real.cos (-angle)
  let s := Real.sin (-angle)
  let z0 := x 0 - x0 0
  let z1 := x 1 - x0 1
  g ![c * z0 + -s * z1 + x0 0, s * z0 + c * z1 + x0 1]

/-- `RotateAxis`. /repo/include/fub/geometry/RotateAxis.hpp:30-35 -/
noncomputable def rotateAxis (g : ℝ → ℝ → ℝ) (x : Pt 3) : ℝ := g (x 0) (Real.sqrt (x 1 * x 1 + x 2 * x 2))

/-- `Ball::ComputeDistanceTo`: the comparison is converted to `double`. /repo/include/fub/geometry/Ball.hpp:33-39 -/
noncomputable def ballGeom {d : ℕ} (center : Pt d) (radius : ℝ) (x : Pt d) : ℝ :=
  let dist : Pt d := fun i => x i - center i
  if dotP dist dist < radius then 1 else 0

/-! ### Polygon -/

/-- `Distance_(v, w, p)` of a segment, one lane. /repo/src/geometry/Polygon.cpp:36-57 -/
noncomputable def segDistance (v w p : Pt 2) : ℝ :=
  let wv : Pt 2 := fun i => w i - v i
  let lengthSquared := dotP wv wv
  let pv : Pt 2 := fun i => p i - v i
  let t := max (min (dotP pv wv / lengthSquared) 1) 0
  let proj : Pt 2 := fun i => (1 - t) * v i + t * w i
  if 0 < lengthSquared then normP (fun i => proj i - p i) else normP (fun i => v i - p i)

/-- `CountCrossedLines_`, one lane. For `w.y = v.y` the quotient is not a number in the code, but then `in_range` is false.
/repo/src/geometry/Polygon.cpp:68-78 -/
noncomputable def crossedLine (v w p : Pt 2) : ℕ :=
  let t := (p 1 - v 1) / (w 1 - v 1)
  let xIntercept := (1 - t) * v 0 + t * w 0
  if ((v 1 < p 1 ∧ p 1 ≤ w 1) ∨ (w 1 < p 1 ∧ p 1 ≤ v 1)) ∧ xIntercept < p 0 then 1 else 0

/-- The two accumulators of `ComputeDistanceTo`, with one entry for each of the `W` lanes. Serves the model of /repo/src/geometry/Polygon.cpp:96-99. -/
structure PolyAcc (W : ℕ) where
  minDistance : Fin W → WithTop ℝ
  crossed : Fin W → ℕ

/-- The accumulators at the start. /repo/src/geometry/Polygon.cpp:96-99 -/
def PolyAcc.init (W : ℕ) : PolyAcc W := ⟨fun _ => ⊤, fun _ => 0⟩

/-- One full chunk: `W` edges between `W + 1` vertices. /repo/src/geometry/Polygon.cpp:105-109 -/
noncomputable def polyChunk {W : ℕ} (vs : List (Pt 2)) (p : Pt 2) (a : PolyAcc W) : Option (PolyAcc W) :=
  if W + 1 ≤ vs.length then
    let v : Fin W → Pt 2 := fun i => vs.getD i 0
    let w : Fin W → Pt 2 := fun i => vs.getD (i + 1) 0
    some ⟨fun i => min (a.minDistance i) (segDistance (v i) (w i) p), fun i => a.crossed i + crossedLine (v i) (w i) p⟩
  else none

/-- The last chunk with `n = count - 1` edges; `none` for `n = -1` (no vertices), where the loop of `DistanceN_` starts at index `-1`, and for
`n > W`. /repo/src/geometry/Polygon.cpp:59-66,80-87,116-126 -/
noncomputable def polyLast {W : ℕ} (vs : List (Pt 2)) (p : Pt 2) (a : PolyAcc W) : Option (PolyAcc W) :=
  if vs.length = 0 ∨ W < vs.length - 1 then none
  else
    let n := vs.length - 1
    let v : Fin W → Pt 2 := fun i => if (i : ℕ) < n then vs.getD i 0 else 0
    let w : Fin W → Pt 2 := fun i => if (i : ℕ) < n then vs.getD (i + 1) 0 else 0
    some ⟨fun i => min (a.minDistance i) (if (i : ℕ) < n then (segDistance (v i) (w i) p : WithTop ℝ) else ⊤),
          fun i => a.crossed i + if (i : ℕ) < n then crossedLine (v i) (w i) p else 0⟩

/-- The loop over chunks. The chunk width of the code is a positive constant; for `W = 0` the loop would not end (`none`).
/repo/src/geometry/Polygon.cpp:103-126 -/
noncomputable def polyLoop {W : ℕ} (p : Pt 2) (vs : List (Pt 2)) (a : PolyAcc W) : Option (PolyAcc W) :=
  if h : 0 < W ∧ W + 1 < vs.length then
    match polyChunk vs p a with
    | none => none
    | some a => polyLoop p (vs.drop W) a
  else if 0 < W then polyLast vs p a else none
termination_by vs.length
decreasing_by rw [List.length_drop]; omega

/-- `Polygon::ComputeDistanceTo`: the sign and the absolute value of the result. The two coordinate vectors have the same length.
/repo/src/geometry/Polygon.cpp:91-132 -/
noncomputable def polygonDistance (W : ℕ) (vs : List (Pt 2)) (p : Pt 2) : Option (ℤ × WithTop ℝ) :=
  match polyLoop p vs (PolyAcc.init W) with
  | none => none
  | some a =>
    let distance := (List.finRange W).foldl (fun m i => min m (a.minDistance i)) ⊤
    let crossedLines := ∑ i, a.crossed i
    some (if crossedLines % 2 ≠ 0 then 1 else -1, distance)

/-! ### Cone -/

/-- `ConeIF::ComputeDistanceTo`. `eps` stands for the machine epsilon. /repo/src/geometry/Cone.cpp:40-87 -/
noncomputable def coneGeom (eps : ℝ) (x0 : Pt 3) (baseRadius height : ℝ) (inside : Bool) (p : Pt 3) : ℝ :=
  let normal : Pt 3 := ![1, 0, 0]
  let sign : ℝ := if inside then 1 else -1
  let l := dotP normal (fun i => p i - x0 i)
  let dpRadial : Pt 3 := fun i => p i - (x0 i + l * normal i)
  let r := normP dpRadial
  let radiusAtL := (1 - l / height) * baseRadius
  if l < 0 then
    if r < baseRadius then sign * -l
    else
      let e : Pt 3 := fun i => x0 i - (p i - l * normal i)
      sign * Real.sqrt (l * l + dotP e e)
  else
    let apex : Pt 3 := fun i => x0 i + height * normal i
    if height < l then sign * normP (fun i => p i - apex i)
    else
      let rim : Pt 3 :=
        if Real.sqrt eps < normP dpRadial then fun i => x0 i + normalizedP dpRadial i * baseRadius
        else fun i => x0 i + baseRadius * (![0, 1, 0] : Pt 3) i
      let tangential := normalizedP (fun i => apex i - rim i)
      let distanceOnFace := dotP tangential (fun i => p i - rim i)
      let pr : Pt 3 := fun i => p i - rim i
      if distanceOnFace < 0 then sign * Real.sqrt (l * l + dotP pr pr)
      else
        let onFace : Pt 3 := fun i => rim i + distanceOnFace * tangential i
        let d := normP (fun i => onFace i - p i)
        if radiusAtL < r then sign * d else sign * -min d l

/-! ### Tube around a centerline -/

/-- `GetHeightsFromPoints_`. /repo/src/geometry/ExpandTube.cpp:29-36 -/
noncomputable def tubeHeights (points : List (Pt 3)) : List (Pt 3) :=
  List.zipWith (fun a b => normalizedP fun i => b i - a i) points points.tail

/-- The loop of `GetPlanes`, from column one to the last but one. /repo/src/geometry/ExpandTube.cpp:47-54 -/
noncomputable def tubePlanesLoop : Pt 3 → List (Pt 3 × Pt 3) → List (Pt 3)
  | _, [] => []
  | norm0, (norm1, point) :: r =>
    let avg := normalizedP fun i => 1 / 2 * (norm0 i + norm1 i)
    ![avg 0, avg 1, dotP avg point] :: tubePlanesLoop norm1 r

/-- `GetPlanes`: the first two entries of a column are the normal in the plane, the third is the offset.
/repo/src/geometry/ExpandTube.cpp:38-61 -/
noncomputable def tubePlanes (points : List (Pt 3)) : List (Pt 3) :=
  let first : Pt 3 := ![0, 1, 0]
  let last : Pt 3 := ![0, -1, 0]
  ![first 0, first 1, dotP first (points.headD 0)] ::
    (tubePlanesLoop first ((tubeHeights points).tail.zip points.tail) ++ [![last 0, last 1, dotP last (points.getLastD 0)]])

/-- The entry of `distances` for one section. /repo/src/geometry/ExpandTube.cpp:63-69,99-105 -/
noncomputable def tubeSection (radius : ℝ) (lo hi center h x : Pt 3) : ℝ :=
  let length := dotP h (fun i => x i - center i)
  let r := normP fun i => x i - (center i + length * h i)
  max (max (lo 2 - (lo 0 * x 0 + lo 1 * x 1)) ((hi 0 * x 0 + hi 1 * x 1) - hi 2)) (r - radius)

/-- `ExpandTube::operator()`; `none` if there is no section (the end iterator is dereferenced). /repo/src/geometry/ExpandTube.cpp:87-108 -/
noncomputable def expandTube (points : List (Pt 3)) (radius : ℝ) (x : Pt 3) : Option ℝ :=
  let planes := tubePlanes points
  let heights := tubeHeights points
  let distances := (List.range heights.length).map fun i =>
    tubeSection radius (planes.getD i 0) (planes.getD (i + 1) 0) (points.getD i 0) (heights.getD i 0) x
  distances.min?.map fun m => -m

end Fub
