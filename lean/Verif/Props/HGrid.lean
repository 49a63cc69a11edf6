import Verif.Model.HGrid
import Verif.Props.CutGradient
import Verif.Props.CutCell

/-!
C107: reconstruction of states next to walls in the second order cut-cell method. C108: reference states and stabilised fluxes of that method.
-/

namespace Fub

section
variable {K : Type} [Field K] [LinearOrder K] [IsStrictOrderedRing K]

/-- Specification: the field is the affine function `a + b x + c y`: its values are those at the centroids of the cells and its gradients are exact. -/
def IsAffine (g : EbGeom K) (dx : K × K) (f : GradField K) (a b c : K) : Prop :=
  ∀ i : ℤ × ℤ, f.val i = a + b * (absCentroid g dx i.1 i.2).1 + c * (absCentroid g dx i.1 i.2).2 ∧ f.gx i = b ∧ f.gy i = c

omit [LinearOrder K] [IsStrictOrderedRing K] in
theorem extrapolate_affine (g : EbGeom K) (dx : K × K) (f : GradField K) (a b c : K) (h : IsAffine g dx f a b c) (i : ℤ × ℤ) (x : K × K) :
    extrapolate g dx f i x = a + b * x.1 + c * x.2 := by
  unfold extrapolate
  rw [(h i).1, (h i).2.1, (h i).2.2]; ring

omit [LinearOrder K] [IsStrictOrderedRing K] in
theorem grad_affine (g : EbGeom K) (dx : K × K) (f : GradField K) (a b c : K) (h : IsAffine g dx f a b c) (d : Bool) (i : ℤ × ℤ) :
    f.grad d i = if d then b else c := by
  unfold GradField.grad
  rw [(h i).2.1, (h i).2.2]

omit [LinearOrder K] [IsStrictOrderedRing K] in
/-- C107: next to an unshielded face part the two states are the values of an affine field half a cell to both sides of the given point, with exact gradients. -/
theorem hgrid_regular_exact (g : EbGeom K) (dx : K × K) (f : GradField K) (a b c : K) (h : IsAffine g dx f a b c) (d : Bool) (face : ℤ × ℤ) (xM : K × K) :
    regularStencil g dx f d face xM =
      if d then ((a + b * (xM.1 - dx.1 / 2) + c * xM.2, b), (a + b * (xM.1 + dx.1 / 2) + c * xM.2, b))
      else ((a + b * xM.1 + c * (xM.2 - dx.2 / 2), c), (a + b * xM.1 + c * (xM.2 + dx.2 / 2), c)) := by
  unfold regularStencil
  simp only [extrapolate_affine g dx f a b c h, grad_affine g dx f a b c h]
  cases d
  · simp only [unit2, along, Bool.false_eq_true, if_false]
    refine Prod.ext (Prod.ext ?_ rfl) (Prod.ext ?_ rfl) <;> simp only <;> ring
  · simp only [unit2, along, if_true]
    refine Prod.ext (Prod.ext ?_ rfl) (Prod.ext ?_ rfl) <;> simp only <;> ring

/-- Specification: the value of the affine field half a cell (sign `sgn`) next to the middle of the face of a cell at the height of the wall; `right` says which face of the cell. -/
def nextToFace (g : EbGeom K) (dx : K × K) (a b c : K) (d : Bool) (cell : ℤ × ℤ) (right : Bool) (sgn : K) : K :=
  let xB := absBoundary g dx cell.1 cell.2
  if d then a + b * (((cell.1 : K) + (if right then 1 else 0)) * dx.1 + sgn * (dx.1 / 2)) + c * xB.2
  else a + b * xB.1 + c * (((cell.2 : K) + (if right then 1 else 0)) * dx.2 + sgn * (dx.2 / 2))

/-- C107: next to a shielded face part the two states are the values of an affine field half a cell to both sides of the face, with exact gradients, provided the states at the wall are the values of that field half a cell to both sides of the centre of the wall. -/
theorem hgrid_shielded_exact (g : EbGeom K) (dx : K × K) (f : GradField K) (a b c : K) (h : IsAffine g dx f a b c) (d : Bool) (cell : ℤ × ℤ)
    (eb : (K × K) × (K × K))
    (hebL : eb.1 = (a + b * (absBoundary g dx cell.1 cell.2).1 + c * (absBoundary g dx cell.1 cell.2).2 - (if d then b * dx.1 else c * dx.2) / 2, if d then b else c))
    (hebR : eb.2 = (a + b * (absBoundary g dx cell.1 cell.2).1 + c * (absBoundary g dx cell.1 cell.2).2 + (if d then b * dx.1 else c * dx.2) / 2, if d then b else c)) :
    (faceFrac g d cell < faceFrac g d (shift2 d 1 cell) →
      shieldedStencil g dx f d cell eb = some ((nextToFace g dx a b c d cell true (-1), if d then b else c), (nextToFace g dx a b c d cell true 1, if d then b else c))) ∧
    (faceFrac g d (shift2 d 1 cell) < faceFrac g d cell →
      shieldedStencil g dx f d cell eb = some ((nextToFace g dx a b c d cell false (-1), if d then b else c), (nextToFace g dx a b c d cell false 1, if d then b else c))) := by
  constructor
  · intro hlt
    unfold shieldedStencil
    simp only [hlt, if_true, extrapolate_affine g dx f a b c h, grad_affine g dx f a b c h, hebL, hebR]
    unfold nextToFace
    cases d
    · simp only [unit2, along, absBoundary, Bool.false_eq_true, if_false, if_true]
      refine congrArg some (Prod.ext (Prod.ext ?_ ?_) (Prod.ext ?_ ?_)) <;> ring
    · simp only [unit2, along, absBoundary, if_true]
      refine congrArg some (Prod.ext (Prod.ext ?_ ?_) (Prod.ext ?_ ?_)) <;> ring
  · intro hlt
    unfold shieldedStencil
    have hn := lt_asymm hlt
    simp only [hn, hlt, if_false, if_true, extrapolate_affine g dx f a b c h, grad_affine g dx f a b c h, hebL, hebR]
    unfold nextToFace
    cases d
    · simp only [unit2, along, absBoundary, Bool.false_eq_true, if_false]
      refine congrArg some (Prod.ext (Prod.ext ?_ ?_) (Prod.ext ?_ ?_)) <;> ring
    · simp only [unit2, along, absBoundary, Bool.false_eq_true, if_false, if_true]
      refine congrArg some (Prod.ext (Prod.ext ?_ ?_) (Prod.ext ?_ ?_)) <;> ring

/-! ### States at the wall -/

/-- Specification: the mirror image of a point in the wall through `xB` with unit normal `n`. -/
def mirrorPoint (xB n x : K × K) : K × K :=
  (x.1 - 2 * ((x.1 - xB.1) * n.1 + (x.2 - xB.2) * n.2) * n.1, x.2 - 2 * ((x.1 - xB.1) * n.1 + (x.2 - xB.2) * n.2) * n.2)

/-- Specification: the mirror image of a vector. -/
def mirrorVector (n v : K × K) : K × K := (v.1 - 2 * (v.1 * n.1 + v.2 * n.2) * n.1, v.2 - 2 * (v.1 * n.1 + v.2 * n.2) * n.2)

/-- Specification: the point half a cell from `xB` in the direction of the split. -/
def halfStep (xB : K × K) (h : K) (d : Bool) (sgn : K) : K × K := if d then (xB.1 + sgn * (h / 2), xB.2) else (xB.1, xB.2 + sgn * (h / 2))

/-- The statement of `hgrid_wall_mirror_partial` in terms of the evaluation of the reference field. -/
theorem hgrid_wall_eval (r : LinState K) (xB n : K × K) (h : K) (d : Bool) (betaL betaR : K) :
    (betaL < betaR → ∃ bnd int, ebStencil r xB n h d betaL betaR = some (bnd, int) ∧
      int.s = r.evalS (halfStep xB h d 1) ∧ int.m = r.evalM (halfStep xB h d 1) ∧
      bnd.s = r.evalS (mirrorPoint xB n (halfStep xB h d (-1))) ∧ bnd.m = mirrorVector n (r.evalM (mirrorPoint xB n (halfStep xB h d (-1)))) ∧
      int.ds * h = r.evalS (halfStep xB h d 1) - r.evalS (halfStep xB h d (-1)) ∧
      bnd.ds * h = r.evalS (mirrorPoint xB n (halfStep xB h d 1)) - r.evalS (mirrorPoint xB n (halfStep xB h d (-1)))) ∧
    (betaR < betaL → ∃ bnd int, ebStencil r xB n h d betaL betaR = some (int, bnd) ∧
      int.s = r.evalS (halfStep xB h d (-1)) ∧ int.m = r.evalM (halfStep xB h d (-1)) ∧
      bnd.s = r.evalS (mirrorPoint xB n (halfStep xB h d 1)) ∧ bnd.m = mirrorVector n (r.evalM (mirrorPoint xB n (halfStep xB h d 1))) ∧
      int.ds * h = r.evalS (halfStep xB h d 1) - r.evalS (halfStep xB h d (-1)) ∧
      bnd.ds * h = r.evalS (mirrorPoint xB n (halfStep xB h d 1)) - r.evalS (mirrorPoint xB n (halfStep xB h d (-1)))) := by
  have e1 : (xB.1 + 1 / 2 * h * (unit2 d : K × K).1, xB.2 + 1 / 2 * h * (unit2 d : K × K).2) = halfStep xB h d 1 := by
    unfold unit2 halfStep; cases d
    · simp only [Bool.false_eq_true, if_false]; refine Prod.ext ?_ ?_ <;> simp only <;> ring
    · simp only [if_true]; refine Prod.ext ?_ ?_ <;> simp only <;> ring
  have e2 : (xB.1 - 1 / 2 * h * (unit2 d : K × K).1, xB.2 - 1 / 2 * h * (unit2 d : K × K).2) = halfStep xB h d (-1) := by
    unfold unit2 halfStep; cases d
    · simp only [Bool.false_eq_true, if_false]; refine Prod.ext ?_ ?_ <;> simp only <;> ring
    · simp only [if_true]; refine Prod.ext ?_ ?_ <;> simp only <;> ring
  have e3 : (xB.1 - 1 / 2 * h * (reflect2 (unit2 d) n).1, xB.2 - 1 / 2 * h * (reflect2 (unit2 d) n).2) = mirrorPoint xB n (halfStep xB h d (-1)) := by
    unfold unit2 halfStep reflect2 mirrorPoint; cases d
    · simp only [Bool.false_eq_true, if_false]; refine Prod.ext ?_ ?_ <;> simp only <;> ring
    · simp only [if_true]; refine Prod.ext ?_ ?_ <;> simp only <;> ring
  have e4 : (xB.1 + 1 / 2 * h * (reflect2 (unit2 d) n).1, xB.2 + 1 / 2 * h * (reflect2 (unit2 d) n).2) = mirrorPoint xB n (halfStep xB h d 1) := by
    unfold unit2 halfStep reflect2 mirrorPoint; cases d
    · simp only [Bool.false_eq_true, if_false]; refine Prod.ext ?_ ?_ <;> simp only <;> ring
    · simp only [if_true]; refine Prod.ext ?_ ?_ <;> simp only <;> ring
  have g1 : (if d = true then r.sx else r.sy) * h = r.evalS (halfStep xB h d 1) - r.evalS (halfStep xB h d (-1)) := by
    unfold LinState.evalS halfStep; cases d
    · simp only [Bool.false_eq_true, if_false]; ring
    · simp only [if_true]; ring
  have g2 : (r.sx * (reflect2 (unit2 d) n).1 + r.sy * (reflect2 (unit2 d) n).2) * h = r.evalS (mirrorPoint xB n (halfStep xB h d 1)) - r.evalS (mirrorPoint xB n (halfStep xB h d (-1))) := by
    rw [← e3, ← e4]
    unfold LinState.evalS
    ring
  constructor
  · intro hlt
    refine ⟨⟨_, _, _, _⟩, ⟨_, _, _, _⟩, if_pos hlt, ?_, ?_, ?_, ?_, ?_, ?_⟩
    · simp only; rw [e1]
    · simp only; rw [e1]
    · simp only; rw [e3]
    · simp only; rw [e3]; rfl
    · exact g1
    · exact g2
  · intro hlt
    refine ⟨⟨_, _, _, _⟩, ⟨_, _, _, _⟩, (if_neg (lt_asymm hlt)).trans (if_pos hlt), ?_, ?_, ?_, ?_, ?_, ?_⟩
    · simp only; rw [e2]
    · simp only; rw [e2]
    · simp only; rw [e4]
    · simp only; rw [e4]; rfl
    · exact g1
    · exact g2

/-- Specification: the reference of a wall is the field with scalar part `S` and vector part `M`: it has their values at its point, and their
differences to all other points are given by its slopes. -/
structure IsLinearField (r : LinState K) (S : K × K → K) (M : K × K → K × K) : Prop where
  valueS : S r.x0 = r.s
  valueM : M r.x0 = r.m
  slopeS : ∀ x, S x - S r.x0 = r.sx * (x.1 - r.x0.1) + r.sy * (x.2 - r.x0.2)
  slopeM1 : ∀ x, (M x).1 - (M r.x0).1 = r.mx.1 * (x.1 - r.x0.1) + r.my.1 * (x.2 - r.x0.2)
  slopeM2 : ∀ x, (M x).2 - (M r.x0).2 = r.mx.2 * (x.1 - r.x0.1) + r.my.2 * (x.2 - r.x0.2)

/-- C107 (partial: the gradients of the vector part are missing, see `hgrid_wall_gradient_not_mirrored`): at a wall the state on the fluid side is the reference field half a cell from the centre of the wall, and the state on the solid side is the mirror image of the reference field: scalars are taken at the mirrored point, vectors are mirrored as well. The gradients of the scalars are those of the mirrored field. -/
theorem hgrid_wall_mirror_partial (r : LinState K) (xB n : K × K) (h : K) (d : Bool) (betaL betaR : K) (S : K × K → K) (M : K × K → K × K)
    (hr : IsLinearField r S M) :
    (betaL < betaR → ∃ bnd int, ebStencil r xB n h d betaL betaR = some (bnd, int) ∧
      int.s = S (halfStep xB h d 1) ∧ int.m = M (halfStep xB h d 1) ∧
      bnd.s = S (mirrorPoint xB n (halfStep xB h d (-1))) ∧ bnd.m = mirrorVector n (M (mirrorPoint xB n (halfStep xB h d (-1)))) ∧
      int.ds * h = S (halfStep xB h d 1) - S (halfStep xB h d (-1)) ∧
      bnd.ds * h = S (mirrorPoint xB n (halfStep xB h d 1)) - S (mirrorPoint xB n (halfStep xB h d (-1)))) ∧
    (betaR < betaL → ∃ bnd int, ebStencil r xB n h d betaL betaR = some (int, bnd) ∧
      int.s = S (halfStep xB h d (-1)) ∧ int.m = M (halfStep xB h d (-1)) ∧
      bnd.s = S (mirrorPoint xB n (halfStep xB h d 1)) ∧ bnd.m = mirrorVector n (M (mirrorPoint xB n (halfStep xB h d 1))) ∧
      int.ds * h = S (halfStep xB h d 1) - S (halfStep xB h d (-1)) ∧
      bnd.ds * h = S (mirrorPoint xB n (halfStep xB h d 1)) - S (mirrorPoint xB n (halfStep xB h d (-1)))) := by
  have hS : S = r.evalS := funext fun x => by
    have := hr.slopeS x
    rw [hr.valueS] at this
    unfold LinState.evalS
    linear_combination this
  have hM : M = r.evalM := funext fun x => by
    have h1 := hr.slopeM1 x
    have h2 := hr.slopeM2 x
    rw [hr.valueM] at h1 h2
    unfold LinState.evalM
    refine Prod.ext ?_ ?_
    · linear_combination h1
    · linear_combination h2
  subst hS hM
  exact hgrid_wall_eval r xB n h d betaL betaR

/-- A reference with slopes in both directions. -/
example : IsLinearField (⟨(1, 2), 3, 1, -1, (0, 1), (1, 0), (0, 2)⟩ : LinState ℚ) (fun x => 4 + x.1 - x.2) (fun x => (x.1 - 1, 2 * x.2 - 3)) :=
  ⟨by norm_num, by norm_num, fun x => by ring, fun x => by ring, fun x => by ring⟩

/-- C107: with a uniform reference field the two states are mirror images of each other, so that both carry opposite normal velocities. -/
theorem hgrid_wall_uniform (r : LinState K) (xB n : K × K) (h : K) (d : Bool) (betaL betaR : K) (hn : n.1 ^ 2 + n.2 ^ 2 = 1)
    (hz : r.sx = 0 ∧ r.sy = 0 ∧ r.mx = (0, 0) ∧ r.my = (0, 0)) (hne : betaL ≠ betaR) :
    ∃ l q, ebStencil r xB n h d betaL betaR = some (l, q) ∧ l.s = q.s ∧ l.s = r.s ∧ l.m = mirrorVector n q.m ∧
      l.m.1 * n.1 + l.m.2 * n.2 = -(q.m.1 * n.1 + q.m.2 * n.2) ∧ l.ds = 0 ∧ q.ds = 0 := by
  obtain ⟨h1, h2, h3, h4⟩ := hz
  have es : ∀ x, r.evalS x = r.s := fun x => by unfold LinState.evalS; rw [h1, h2]; ring
  have em : ∀ x, r.evalM x = r.m := fun x => by unfold LinState.evalM; rw [h3, h4]; simp
  have hm : ∀ v : K × K, reflect2 v n = mirrorVector n v := fun v => rfl
  have hmm : ∀ v : K × K, mirrorVector n (mirrorVector n v) = v := by
    intro v
    unfold mirrorVector
    refine Prod.ext ?_ ?_
    · simp only; linear_combination (4 * (v.1 * n.1 + v.2 * n.2) * n.1) * hn
    · simp only; linear_combination (4 * (v.1 * n.1 + v.2 * n.2) * n.2) * hn
  have hopp : ∀ v : K × K, (mirrorVector n v).1 * n.1 + (mirrorVector n v).2 * n.2 = -(v.1 * n.1 + v.2 * n.2) := by
    intro v
    unfold mirrorVector
    simp only
    linear_combination (-2 * (v.1 * n.1 + v.2 * n.2)) * hn
  rcases lt_or_gt_of_ne hne with hlt | hlt
  · refine ⟨⟨_, _, _, _⟩, ⟨_, _, _, _⟩, if_pos hlt, ?_, ?_, ?_, ?_, ?_, ?_⟩
    · simp only [es]
    · simp only [es]
    · simp only [em, hm]
    · simp only [em, hm, hopp]
    · simp only [h1, h2]; ring
    · simp only [h1, h2, ite_self]
  · refine ⟨⟨_, _, _, _⟩, ⟨_, _, _, _⟩, (if_neg (lt_asymm hlt)).trans (if_pos hlt), ?_, ?_, ?_, ?_, ?_, ?_⟩
    · simp only [es]
    · simp only [es]
    · simp only [em, hm, hmm]
    · simp only [em, hm, hopp]; ring
    · simp only [h1, h2, ite_self]
    · simp only [h1, h2]; ring

end

example : (3 / 5 : ℚ) ^ 2 + (4 / 5) ^ 2 = 1 := by norm_num

/-- Disagreement (C107): the gradient of the mirrored vector is not mirrored. For a wall with normal along the first axis and a velocity growing away from the wall, the mirrored velocity field has the slope `+1` across the wall; the code stores `-1`. -/
theorem hgrid_wall_gradient_not_mirrored :
    let r : LinState ℚ := ⟨(0, 0), 1, 0, 0, (0, 0), (1, 0), (0, 0)⟩
    (ebStencil r (0, 0) (1, 0) 1 true 0 1).map (fun q => q.1.dm) = some (-1, 0) ∧
      (mirrorVector (1, 0) (r.evalM (mirrorPoint (0, 0) (1, 0) (halfStep (0, 0) 1 true 1)))).1 - (mirrorVector (1, 0) (r.evalM (mirrorPoint (0, 0) (1, 0) (halfStep (0, 0) 1 true (-1))))).1 = 1 := by
  decide +kernel

/-- A concrete cut cell with the wall on the left: the hypotheses of the theorem on shielded faces are met. -/
example : faceFrac (⟨fun _ _ => 1, fun _ _ => (0, 0), fun _ _ => (-1 / 4, 0), fun _ _ => (1, 0), fun i _ => if i = 0 then 1 / 2 else 1, fun _ _ => 1⟩ : EbGeom ℚ) true (0, 0) <
    faceFrac (⟨fun _ _ => 1, fun _ _ => (0, 0), fun _ _ => (-1 / 4, 0), fun _ _ => (1, 0), fun i _ => if i = 0 then 1 / 2 else 1, fun _ _ => 1⟩ : EbGeom ℚ) true (shift2 true 1 (0, 0)) := by
  decide +kernel

section
variable {K : Type} [Field K] [LinearOrder K] [IsStrictOrderedRing K]

/-! ### Reference states -/

/-- Specification: the sources in use have positive volume, the others none. -/
def SourcesOk (pts : List (IntPoint K)) : Prop := ∃ used rest, pts = used ++ rest ∧ used ≠ [] ∧ (∀ p ∈ used, 0 < p.volume) ∧ (∀ p ∈ rest, p.volume = 0)

omit [IsStrictOrderedRing K] in
theorem takeWhile_used (used rest : List (IntPoint K)) (P : IntPoint K → Bool) (h1 : ∀ p ∈ used, P p = true) (h2 : ∀ p ∈ rest, P p = false) :
    (used ++ rest).takeWhile P = used := by
  rw [List.takeWhile_append_of_pos h1]
  cases rest with
  | nil => simp
  | cons a t => simp [h2 a List.mem_cons_self]

omit [LinearOrder K] [IsStrictOrderedRing K] in
theorem sum_rest (rest : List (IntPoint K)) (h2 : ∀ p ∈ rest, p.volume = 0) : (rest.map fun p => p.volume).sum = 0 := by
  induction rest with
  | nil => rfl
  | cons a t ih => simp only [List.map_cons, List.sum_cons, h2 a List.mem_cons_self, ih (fun p hp => h2 p (List.mem_cons_of_mem _ hp)), add_zero]

theorem sum_used_pos (used : List (IntPoint K)) (hne : used ≠ []) (h1 : ∀ p ∈ used, 0 < p.volume) : 0 < (used.map fun p => p.volume).sum := by
  induction used with
  | nil => exact absurd rfl hne
  | cons a t ih =>
    simp only [List.map_cons, List.sum_cons]
    have ha := h1 a List.mem_cons_self
    by_cases ht : t = []
    · subst ht; simpa using ha
    · have := ih ht (fun p hp => h1 p (List.mem_cons_of_mem _ hp)); linarith

/-- C108 (partial: value and the gradient along the first axis): the reference state of a wall is the mean of the reconstruction over its sources; for an affine field it is the value at their common centroid, and the gradient along the first axis is exact. -/
theorem reference_state_exact_partial (g : EbGeom K) (dx : K × K) (f : GradField K) (a b c : K) (h : IsAffine g dx f a b c) (inBox : ℤ × ℤ → Bool) (pts : List (IntPoint K))
    (hok : SourcesOk pts) (hin : ∀ p ∈ pts, 0 < p.volume → inBox p.idx = true ∧ 0 < g.vol p.idx.1 p.idx.2) :
    ∃ ey, integrateCellState g dx f inBox pts = .ok (a + b * (intCentroid pts).1 + c * (intCentroid pts).2) b ey := by
  obtain ⟨used, rest, rfl, hne, h1, h2⟩ := hok
  have htot : ((used ++ rest).map fun p => p.volume).sum = (used.map fun p => p.volume).sum := by
    rw [List.map_append, List.sum_append, sum_rest rest h2, add_zero]
  have hpos := sum_used_pos used hne h1
  have t1 : (used ++ rest).takeWhile (fun p => decide (p.volume ≠ 0)) = used :=
    takeWhile_used used rest _ (fun p hp => by simpa using (h1 p hp).ne') (fun p hp => by simpa using h2 p hp)
  have t2 : (used ++ rest).takeWhile (fun p => decide (p.volume > 0)) = used :=
    takeWhile_used used rest _ (fun p hp => by simpa using h1 p hp) (fun p hp => by simp [h2 p hp])
  have hall : (used.all fun p => inBox p.idx && decide (g.vol p.idx.1 p.idx.2 > 0)) = true := by
    rw [List.all_eq_true]
    intro p hp
    obtain ⟨q1, q2⟩ := hin p (List.mem_append_left _ hp) (h1 p hp)
    simp [q1, q2]
  unfold integrateCellState intCentroid
  simp only [htot, t1, t2, hall, if_true, hpos.ne', if_false]
  have key : ∀ (l : List (IntPoint K)) (T : K), T ≠ 0 → (l.map fun p => p.volume / T * extrapolate g dx f p.idx p.xM).sum =
      (a * (l.map fun p => p.volume).sum + b * (l.map fun p => p.volume * p.xM.1).sum + c * (l.map fun p => p.volume * p.xM.2).sum) / T := by
    intro l T hT
    induction l with
    | nil => simp
    | cons p t ih =>
      simp only [List.map_cons, List.sum_cons]
      rw [ih, extrapolate_affine g dx f a b c h]
      generalize (t.map fun p => p.volume).sum = s1
      generalize (t.map fun p => p.volume * p.xM.1).sum = s2
      generalize (t.map fun p => p.volume * p.xM.2).sum = s3
      field_simp
      ring
  have key2 : ∀ (l : List (IntPoint K)) (T : K), T ≠ 0 → (l.map fun p => p.volume / T * f.gx p.idx).sum = b * (l.map fun p => p.volume).sum / T := by
    intro l T hT
    induction l with
    | nil => simp
    | cons p t ih =>
      simp only [List.map_cons, List.sum_cons]
      rw [ih, (h p.idx).2.1]
      generalize (t.map fun p => p.volume).sum = s1
      field_simp
  refine ⟨(used.map fun p => p.volume / (used.map fun p => p.volume).sum * f.gx p.idx).sum, ?_⟩
  rw [key used _ hpos.ne', key2 used _ hpos.ne']
  generalize (used.map fun p => p.volume).sum = T at hpos ⊢
  have hT := hpos.ne'
  generalize (used.map fun p => p.volume * p.xM.1).sum = s2
  generalize (used.map fun p => p.volume * p.xM.2).sum = s3
  congr 1
  · field_simp
  · field_simp

omit [LinearOrder K] [IsStrictOrderedRing K] in
/-- C108: one reference is stored for every cut cell, in order, and a cell whose integration succeeds stores its own result. -/
theorem reference_stored (init : K × K × K) (cells : List ((ℤ × ℤ) × IntResult K)) :
    (boundaryStates init cells).length = cells.length ∧
    ∀ (k : ℕ) (c : ℤ × ℤ) (v ex ey : K), cells[k]? = some (c, .ok v ex ey) → (boundaryStates init cells)[k]? = some (c, (v, ex, ey)) := by
  unfold boundaryStates
  induction cells using List.reverseRecOn with
  | nil => exact ⟨rfl, fun k c v ex ey h => by simp at h⟩
  | append_singleton l a ih =>
    rw [List.foldl_append, List.foldl_cons, List.foldl_nil]
    generalize l.foldl boundaryStep (init, []) = st at ih ⊢
    unfold boundaryStep
    simp only
    refine ⟨by simp [ih.1], fun k c v ex ey h => ?_⟩
    by_cases hkl : k < l.length
    · rw [List.getElem?_append_left (by rw [ih.1]; exact hkl)]
      rw [List.getElem?_append_left hkl] at h
      exact ih.2 k c v ex ey h
    · rw [List.getElem?_append_right (by rw [ih.1]; omega), ih.1]
      rw [List.getElem?_append_right (by omega)] at h
      by_cases hz : k - l.length = 0
      · rw [hz] at h ⊢
        simp only [List.getElem?_cons_zero, Option.some.injEq] at h ⊢
        subst h
        rfl
      · rw [List.getElem?_eq_none (by simp; omega)] at h
        cases h

end

/-- Two sources fill the cell next to a wall: the hypotheses of the theorem on reference states are met. -/
example : SourcesOk [(⟨1 / 2, (1 / 2, 3 / 4), (0, 0)⟩ : IntPoint ℚ), ⟨1 / 4, (3 / 2, 1 / 2), (1, 0)⟩, ⟨0, (0, 0), (0, 0)⟩] ∧
    intCentroid [(⟨1 / 2, (1 / 2, 3 / 4), (0, 0)⟩ : IntPoint ℚ), ⟨1 / 4, (3 / 2, 1 / 2), (1, 0)⟩, ⟨0, (0, 0), (0, 0)⟩] = (5 / 6, 2 / 3) :=
  ⟨⟨[⟨1 / 2, (1 / 2, 3 / 4), (0, 0)⟩, ⟨1 / 4, (3 / 2, 1 / 2), (1, 0)⟩], [⟨0, (0, 0), (0, 0)⟩], rfl, by simp,
    by simp only [List.forall_mem_cons, List.not_mem_nil, false_imp_iff, implies_true, and_true]; norm_num, by simp⟩, by decide +kernel⟩

/-- Disagreement (C108): the second component of the reference gradient is accumulated from the gradients along the first axis; the gradient of the field `y` becomes zero. -/
theorem reference_gradient_wrong :
    integrateCellState freeGeom (1, 1) ⟨fun i => (i.2 : ℚ) + 1 / 2, fun _ => 0, fun _ => 1⟩ (fun _ => true) [⟨1 / 2, (1 / 2, 3 / 4), (0, 0)⟩] = .ok (3 / 4) 0 0 := by
  decide +kernel

/-- Disagreement (C108): a cell whose integration fails stores the result of the cell before it. -/
theorem reference_stale : boundaryStates ((0, 0, 0) : ℚ × ℚ × ℚ) [((0, 0), .ok 5 1 1), ((7, 7), .noVolume), ((8, 8), .outside)] = [((0, 0), (5, 1, 1)), ((7, 7), (5, 1, 1)), ((8, 8), (5, 0, 0))] := by
  rfl

section
variable {K : Type} [Field K] [LinearOrder K] [IsStrictOrderedRing K]

/-! ### Stabilised fluxes -/

/-- C108: the parts of a face that are shielded from the left exist only where the left cell has a smaller face on its left, which is where the flux of the shielded part is computed; likewise on the right. -/
theorem my_shielded_covered (beta : Int → K) (k : Int) (hb : 0 ≤ beta k) :
    ((faceParts beta k).sLRel ≠ 0 → beta (k - 1) < beta k) ∧ ((faceParts beta k).sRRel ≠ 0 → beta (k + 1) < beta k) := by
  unfold faceParts fillCutCellLane
  simp only
  constructor
  · intro h
    by_contra hn
    push Not at hn
    apply h
    have e : max 0 (beta k - beta (k - 1)) = 0 := max_eq_left (by linarith)
    rw [e, min_eq_left (le_max_left _ _)]
    simp
  · intro h
    by_contra hn
    push Not at hn
    apply h
    have e : max 0 (beta k - beta (k + 1)) = 0 := max_eq_left (by linarith)
    rw [e, min_eq_right (le_max_left _ _)]
    simp

/-- C108: for equal fluxes the stabilised flux is that flux up to the doubly shielded part, which contributes nothing. -/
theorem my_stable_uniform (beta : Int → K) (k : Int) (h0 : ∀ k, 0 ≤ beta k) (hb : 0 < beta k) (f : K) :
    myStable (faceParts beta k) f f f = (1 - (faceParts beta k).dsRel) * f := by
  have hp : (faceParts beta k).usRel + (faceParts beta k).sLRel + (faceParts beta k).sRRel + (faceParts beta k).dsRel = 1 := by
    unfold faceParts fillCutCellLane
    have hL := h0 (k - 1)
    have hR := h0 (k + 1)
    generalize beta (k - 1) = bL at *
    generalize beta (k + 1) = bR at *
    generalize beta k = bM at *
    simp only [not_le.2 hb, if_false]
    rw [← add_div, ← add_div, ← add_div, div_eq_iff hb.ne', one_mul]
    have e : max 0 (bM - max (max 0 (bM - bL)) (max 0 (bM - bR))) = bM - max (max 0 (bM - bL)) (max 0 (bM - bR)) := by
      apply max_eq_right
      have : max (max 0 (bM - bL)) (max 0 (bM - bR)) ≤ bM := max_le (max_le hb.le (by linarith)) (max_le hb.le (by linarith))
      linarith
    rw [e]
    generalize max 0 (bM - bL) = x
    generalize max 0 (bM - bR) = y
    have := min_add_max x y
    linarith
  unfold myStable
  linear_combination f * hp

/-- C108 (partial: faces without a doubly shielded part): the stabilised flux is consistent and lies between the fluxes it is built from. -/
theorem my_stable_between_partial (beta : Int → K) (k : Int) (h0 : ∀ k, 0 ≤ beta k) (hb : 0 < beta k) (hds : beta k ≤ beta (k - 1) ∨ beta k ≤ beta (k + 1)) (f fsL fsR lo hi : K)
    (hf : lo ≤ f ∧ f ≤ hi) (hL : lo ≤ fsL ∧ fsL ≤ hi) (hR : lo ≤ fsR ∧ fsR ≤ hi) :
    myStable (faceParts beta k) f f f = f ∧ lo ≤ myStable (faceParts beta k) f fsL fsR ∧ myStable (faceParts beta k) f fsL fsR ≤ hi := by
  have hz : (faceParts beta k).dsRel = 0 := by
    unfold faceParts fillCutCellLane
    simp only
    rcases hds with h | h
    · rw [max_eq_left (show beta k - beta (k - 1) ≤ 0 by linarith), min_eq_left (le_max_left _ _), zero_div]
    · rw [max_eq_left (show beta k - beta (k + 1) ≤ 0 by linarith), min_eq_right (le_max_left _ _), zero_div]
  have hu := fun f => my_stable_uniform beta k h0 hb f
  simp only [hz, sub_zero, one_mul] at hu
  have hnn : 0 ≤ (faceParts beta k).usRel ∧ 0 ≤ (faceParts beta k).sLRel ∧ 0 ≤ (faceParts beta k).sRRel := by
    unfold faceParts fillCutCellLane
    simp only [not_le.2 hb, if_false]
    refine ⟨div_nonneg (le_max_left _ _) hb.le, div_nonneg ?_ hb.le, div_nonneg ?_ hb.le⟩
    · exact sub_nonneg.2 (min_le_left _ _)
    · exact sub_nonneg.2 (min_le_right _ _)
  have hlo := hu lo
  have hhi := hu hi
  refine ⟨hu f, ?_, ?_⟩
  · unfold myStable at hlo ⊢
    have := mul_le_mul_of_nonneg_left hf.1 hnn.1
    have := mul_le_mul_of_nonneg_left hL.1 hnn.2.1
    have := mul_le_mul_of_nonneg_left hR.1 hnn.2.2
    linarith
  · unfold myStable at hhi ⊢
    have := mul_le_mul_of_nonneg_left hf.2 hnn.1
    have := mul_le_mul_of_nonneg_left hL.2 hnn.2.1
    have := mul_le_mul_of_nonneg_left hR.2 hnn.2.2
    linarith

/-- Specification: the open part of a face with open fraction `b`, in units of the face; `solid` says whether the solid lies at the lower end. -/
def openPart (b : K) (solidBelow : Bool) : K × K := if solidBelow then (1 - b, 1) else (0, b)

/-- C108 (partial: the face is fully open and shielded from at most one side): the point around which the states of the unshielded part are taken is the middle of the part of the face seen through the smaller face. -/
theorem unshielded_centroid_partial (beta : Int → K) (k : Int) (nL nR : K) (hM : beta k = 1) (hL : 0 ≤ beta (k - 1)) (hR : 0 ≤ beta (k + 1)) :
    (beta (k - 1) < 1 → 1 ≤ beta (k + 1) →
      usCentroid (faceParts beta k).sL (faceParts beta k).sR nL nR =
        ((openPart (beta (k - 1)) (decide (nL < 0))).1 + (openPart (beta (k - 1)) (decide (nL < 0))).2) / 2 - 1 / 2) ∧
    (beta (k + 1) < 1 → 1 ≤ beta (k - 1) →
      usCentroid (faceParts beta k).sL (faceParts beta k).sR nL nR =
        ((openPart (beta (k + 1)) (decide (nR < 0))).1 + (openPart (beta (k + 1)) (decide (nR < 0))).2) / 2 - 1 / 2) ∧
    (1 ≤ beta (k - 1) → 1 ≤ beta (k + 1) → usCentroid (faceParts beta k).sL (faceParts beta k).sR nL nR = 0) := by
  unfold faceParts fillCutCellLane usCentroid openPart
  rw [hM]
  generalize beta (k - 1) = bL at *
  generalize beta (k + 1) = bR at *
  simp only
  refine ⟨fun h1 h2 => ?_, fun h1 h2 => ?_, fun h1 h2 => ?_⟩
  · rw [max_eq_left (show 1 - bR ≤ 0 by linarith), max_eq_right (show 0 ≤ 1 - bL by linarith), min_eq_right (show (0 : K) ≤ 1 - bL by linarith)]
    simp only [sub_zero, gt_iff_lt, sub_pos, h1, if_true, lt_irrefl, if_false]
    by_cases hn : nL < 0
    · simp only [hn, if_true, decide_true, min_self]
      rw [max_eq_left (show (0 : K) ≤ 1 - bL by linarith)]; ring
    · simp only [hn, if_false, decide_false, Bool.false_eq_true, max_self]
      rw [min_eq_left (show 1 - (1 - bL) ≤ 1 by linarith)]; ring
  · rw [max_eq_left (show 1 - bL ≤ 0 by linarith), max_eq_right (show 0 ≤ 1 - bR by linarith), min_eq_left (show (0 : K) ≤ 1 - bR by linarith)]
    simp only [sub_zero, gt_iff_lt, sub_pos, h1, if_true, lt_irrefl, if_false]
    by_cases hn : nR < 0
    · simp only [hn, if_true, decide_true, min_self]
      rw [max_eq_right (show (0 : K) ≤ 1 - bR by linarith)]; ring
    · simp only [hn, if_false, decide_false, Bool.false_eq_true, max_self]
      rw [min_eq_right (show 1 - (1 - bR) ≤ 1 by linarith)]; ring
  · rw [max_eq_left (show 1 - bL ≤ 0 by linarith), max_eq_left (show 1 - bR ≤ 0 by linarith)]
    simp only [min_self, sub_zero, gt_iff_lt, lt_irrefl, if_false, max_self]
    ring

end

/-- Disagreement (C108): a face shielded from both sides loses the doubly shielded part of its flux: with equal fluxes only half of the flux remains. -/
theorem my_stable_loses_doubly_shielded :
    let beta : Int → ℚ := fun k => if k = 0 then 1 else 1 / 2
    myStable (faceParts beta 0) 10 10 10 = 5 := by
  decide +kernel

/-- Disagreement (C108): if the face itself is cut, or is shielded from both sides, the point is not the middle of the unshielded part. A flat wall rising to the left (open fractions 0.4, 0.7, 1 above it): the unshielded part is `[0.6, 1]` with middle 0.3, the code uses 0.15. Two walls below (0.7, 1, 0.6): the unshielded part is `[0.4, 1]` with middle 0.2, the code uses 0.05. -/
theorem unshielded_centroid_wrong :
    (let beta : Int → ℚ := fun k => if k = -1 then 2 / 5 else if k = 0 then 7 / 10 else 1
     usCentroid (faceParts beta 0).sL (faceParts beta 0).sR (-1) (-1) = 3 / 20 ∧
       ((openPart (2 / 5 : ℚ) true).1 + (openPart (2 / 5 : ℚ) true).2) / 2 - 1 / 2 = 3 / 10 ∧ (openPart (7 / 10 : ℚ) true).1 ≤ (openPart (2 / 5 : ℚ) true).1) ∧
    (let beta : Int → ℚ := fun k => if k = -1 then 7 / 10 else if k = 0 then 1 else 3 / 5
     usCentroid (faceParts beta 0).sL (faceParts beta 0).sR (-1) (-1) = 1 / 20 ∧
       (max (openPart (7 / 10 : ℚ) true).1 (openPart (3 / 5 : ℚ) true).1 + 1) / 2 - 1 / 2 = 1 / 5) := by
  decide +kernel

end Fub
