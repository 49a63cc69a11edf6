import Verif.Spec.Geometry
import Mathlib.Data.List.GetD
import Mathlib.Algebra.Order.BigOperators.Ring.Finset
import Mathlib.Algebra.BigOperators.Field
import Mathlib.Algebra.BigOperators.Fin
import Mathlib.Tactic.Linarith
import Mathlib.Tactic.FieldSimp
import Mathlib.Tactic.Positivity
import Mathlib.Tactic.FinCases

/-!
# C41, C42, C43: implicit geometries
-/

namespace Fub
open Finset

theorem dotP_self_nonneg {d : ℕ} (x : Pt d) : 0 ≤ dotP x x := sum_nonneg fun i _ => mul_self_nonneg _

theorem dotP_cauchy {d : ℕ} (x y : Pt d) : dotP x y ^ 2 ≤ dotP x x * dotP y y := by
  have := Finset.sum_mul_sq_le_sq_mul_sq univ x y
  simpa only [dotP, sq] using this

theorem normP_eq_distP {d : ℕ} (x y : Pt d) : normP (fun i => x i - y i) = distP x y := by
  simp only [normP, distP, dotP, sq]

theorem distP_comm {d : ℕ} (x y : Pt d) : distP x y = distP y x := by
  simp only [distP]; congr 1; exact sum_congr rfl fun i _ => by ring

theorem normalizedP_unit {d : ℕ} (x : Pt d) (h : ∃ i, x i ≠ 0) : dotP (normalizedP x) (normalizedP x) = 1 := by
  have h0 : 0 < dotP x x := by
    obtain ⟨i, hi⟩ := h
    exact sum_pos' (fun j _ => mul_self_nonneg _) ⟨i, mem_univ i, mul_self_pos.2 hi⟩
  have hn : normP x ^ 2 = dotP x x := Real.sq_sqrt h0.le
  have hp : normP x ≠ 0 := (Real.sqrt_pos.2 h0).ne'
  simp only [normalizedP, h0, if_true]
  have : dotP (fun i => x i / normP x) (fun i => x i / normP x) = dotP x x / normP x ^ 2 := by
    rw [dotP, dotP, Finset.sum_div]; exact sum_congr rfl fun i _ => by field_simp
  rw [this, hn, div_self h0.ne']

/-! ## Combinators -/

/-- **C41 (union).** For every list of geometries and every point: the value of the union is the largest value of its members, and a point is in the solid
of the union (positive value) if and only if it is in the solid of a member. The empty union has no points. -/
theorem union_solid {d : ℕ} (lowest : ℝ) (hlow : lowest ≤ 0) (geoms : List (Pt d → ℝ)) (x : Pt d) :
    (0 < unionGeom lowest geoms x ↔ ∃ g ∈ geoms, 0 < g x) ∧ (∀ g ∈ geoms, g x ≤ unionGeom lowest geoms x) ∧
    (unionGeom lowest geoms x = lowest ∨ ∃ g ∈ geoms, unionGeom lowest geoms x = g x) ∧
    ((∀ g ∈ geoms, lowest ≤ g x) → geoms ≠ [] → ∃ g ∈ geoms, unionGeom lowest geoms x = g x) := by
  have key : ∀ (l : List (Pt d → ℝ)) (m : ℝ), m ≤ l.foldl (fun m g => max m (g x)) m ∧ (∀ g ∈ l, g x ≤ l.foldl (fun m g => max m (g x)) m) ∧
      (l.foldl (fun m g => max m (g x)) m = m ∨ ∃ g ∈ l, l.foldl (fun m g => max m (g x)) m = g x) := by
    intro l
    induction l with
    | nil => simp
    | cons a as ih =>
      intro m
      obtain ⟨h1, h2, h3⟩ := ih (max m (a x))
      simp only [List.foldl_cons]
      refine ⟨le_trans (le_max_left _ _) h1, ?_, ?_⟩
      · intro g hg
        rcases List.mem_cons.1 hg with rfl | hg
        · exact le_trans (le_max_right _ _) h1
        · exact h2 g hg
      · rcases h3 with h3 | ⟨g, hg, h3⟩
        · rcases max_choice m (a x) with h | h
          · left; rw [h3, h]
          · right; exact ⟨a, by simp, by rw [h3, h]⟩
        · right; exact ⟨g, by simp [hg], h3⟩
  obtain ⟨h1, h2, h3⟩ := key geoms lowest
  refine ⟨⟨fun h => ?_, fun ⟨g, hg, h⟩ => lt_of_lt_of_le h (h2 g hg)⟩, h2, h3, fun hall hne => ?_⟩
  · rcases h3 with h3 | ⟨g, hg, h3⟩
    · exfalso; unfold unionGeom at h; rw [h3] at h; linarith
    · exact ⟨g, hg, by rw [← h3]; exact h⟩
  · rcases h3 with h3 | h3
    · obtain ⟨g, hg⟩ := List.exists_mem_of_ne_nil _ hne
      refine ⟨g, hg, le_antisymm ?_ (h2 g hg)⟩
      unfold unionGeom; rw [h3]; exact hall g hg
    · exact h3

/-- **C41 (complement and intersection).** Inverting swaps the inside and the outside of a solid and keeps its boundary; inverting twice does nothing; the
inverse of the union of the inverses is the intersection. -/
theorem invert_solid {d : ℕ} (lowest : ℝ) (hlow : lowest < 0) (geoms : List (Pt d → ℝ)) (g : Pt d → ℝ) (x : Pt d) :
    (0 < invertGeom g x ↔ g x < 0) ∧ (invertGeom g x < 0 ↔ 0 < g x) ∧ (invertGeom g x = 0 ↔ g x = 0) ∧ invertGeom (invertGeom g) x = g x ∧
    (0 < invertGeom (unionGeom lowest (geoms.map invertGeom)) x ↔ ∀ g ∈ geoms, 0 < g x) ∧
    (∀ g2 : Pt 2 → ℝ, ∀ y : Pt 3, invertGeom32 g2 y = invertGeom g2 ![y 0, y 1]) := by
  refine ⟨by simp [invertGeom], by simp [invertGeom], by simp [invertGeom], by simp [invertGeom], ?_, fun _ _ => rfl⟩
  obtain ⟨-, h2, h3, -⟩ := union_solid lowest hlow.le (geoms.map invertGeom) x
  constructor
  · intro h g hg
    have := h2 (invertGeom g) (List.mem_map.2 ⟨g, hg, rfl⟩)
    simp only [invertGeom] at this h ⊢
    linarith
  · intro h
    rcases h3 with h3 | ⟨g, hg, h3⟩
    · simp only [invertGeom, h3]; linarith
    · obtain ⟨g', hg', rfl⟩ := List.mem_map.1 hg
      have := h g' hg'
      simp only [invertGeom, h3]; simpa [invertGeom] using this

/-- **C41 (half space).** For a direction that is not zero the half space is the signed distance to a plane orthogonal to this direction: no point of the
plane is nearer than its absolute value, some point is at this distance, and the value grows by `s` when the point is moved by `s` along the
direction. -/
theorem halfspace_distance (dir : Pt 3) (hdir : ∃ i, dir i ≠ 0) (offset : ℝ) (x : Pt 3) :
    (∀ y, halfspace dir offset y = 0 → |halfspace dir offset x| ≤ distP x y) ∧
    (∃ y, halfspace dir offset y = 0 ∧ distP x y = |halfspace dir offset x|) ∧
    (∀ s, halfspace dir offset (fun i => x i + s * normalizedP dir i) = halfspace dir offset x + s) := by
  have hu := normalizedP_unit dir hdir
  set n := normalizedP dir with hn
  have hadd : ∀ (z : Pt 3) (s : ℝ), dotP (fun i => z i + s * n i) n = dotP z n + s := by
    intro z s
    have : dotP (fun i => z i + s * n i) n = dotP z n + s * dotP n n := by
      simp only [dotP, mul_sum, ← sum_add_distrib]; exact sum_congr rfl fun i _ => by ring
    rw [this, hu, mul_one]
  refine ⟨fun y hy => ?_, ⟨fun i => x i + (-halfspace dir offset x) * n i, ?_, ?_⟩, fun s => ?_⟩
  · have h1 : halfspace dir offset x = dotP (fun i => x i - y i) n := by
      have : dotP (fun i => x i - y i) n = dotP x n - dotP y n := by
        simp only [dotP, ← sum_sub_distrib]; exact sum_congr rfl fun i _ => by ring
      simp only [halfspace, ← hn] at hy ⊢
      rw [this]; linarith
    rw [h1, ← normP_eq_distP]
    apply Real.abs_le_sqrt
    have := dotP_cauchy (fun i => x i - y i) n
    rw [hu, mul_one] at this
    exact this
  · simp only [halfspace, ← hn, hadd]; ring
  · simp only [distP]
    have : ∑ i, (x i - (x i + -halfspace dir offset x * n i)) ^ 2 = halfspace dir offset x ^ 2 * dotP n n := by
      simp only [dotP, mul_sum]; exact sum_congr rfl fun i _ => by ring
    rw [this, hu, mul_one, Real.sqrt_sq_eq_abs]
  · simp only [halfspace, ← hn, hadd]; ring

/-- **C41 (rotation around a point).** The rotated geometry has at the point that results from rotating `y` by `angle` (counterclockwise, around `x0`) the value
of the base at `y`; rotations add up, and rotating by zero does nothing. -/
theorem rotateAroundPoint_solid (g : Pt 2 → ℝ) (a b : ℝ) (x0 y : Pt 2) :
    rotateAroundPoint g a x0 ![x0 0 + (Real.cos a * (y 0 - x0 0) - Real.sin a * (y 1 - x0 1)), x0 1 + (Real.sin a * (y 0 - x0 0) + Real.cos a * (y 1 - x0 1))] = g y ∧
    rotateAroundPoint (rotateAroundPoint g a x0) b x0 y = rotateAroundPoint g (a + b) x0 y ∧ rotateAroundPoint g 0 x0 y = g y := by
  have hcs := Real.cos_sq_add_sin_sq a
  have ext2 : ∀ u : Pt 2, ∀ p q : ℝ, p = u 0 → q = u 1 → g ![p, q] = g u := by
    intro u p q h0 h1
    congr 1; funext i; fin_cases i <;> simp [h0, h1]
  refine ⟨?_, ?_, ?_⟩
  · simp only [rotateAroundPoint, Real.cos_neg, Real.sin_neg]
    apply ext2
    · simp; linear_combination (y 0 - x0 0) * hcs
    · simp; linear_combination (y 1 - x0 1) * hcs
  · simp only [rotateAroundPoint, Real.cos_neg, Real.sin_neg, Real.cos_add, Real.sin_add]
    apply ext2
    · simp; ring
    · simp; ring
  · simp only [rotateAroundPoint, neg_zero, Real.cos_zero, Real.sin_zero]
    apply ext2
    · ring
    · ring

/-- **C41 (solid of revolution).** The value does not change under rotations about the first axis, and in the half plane with second coordinate non-negative and
third coordinate zero it is the value of the base. -/
theorem rotateAxis_solid (g : ℝ → ℝ → ℝ) (x : Pt 3) (a : ℝ) :
    rotateAxis g ![x 0, Real.cos a * x 1 - Real.sin a * x 2, Real.sin a * x 1 + Real.cos a * x 2] = rotateAxis g x ∧
    (0 ≤ x 1 → x 2 = 0 → rotateAxis g x = g (x 0) (x 1)) := by
  have hcs := Real.cos_sq_add_sin_sq a
  constructor
  · simp only [rotateAxis]
    congr 1
    · congr 1
      simp
      linear_combination (x 1 ^ 2 + x 2 ^ 2) * hcs
  · intro h1 h2
    simp only [rotateAxis, h2, mul_zero, add_zero]
    rw [Real.sqrt_mul_self h1]

/-! ## Ball -/

theorem distP_single (center : Pt 1) (x : Pt 1) : distP x center = |x 0 - center 0| := by
  simp [distP, Real.sqrt_sq_eq_abs]

/-- **C43 (ball), what holds.** The ball never has negative values; it is positive exactly where the squared distance from the center is less than the
"radius". For radius one this is the open unit ball. -/
theorem ball_partial {d : ℕ} (center : Pt d) (radius : ℝ) (x : Pt d) :
    0 ≤ ballGeom center radius x ∧ (0 < ballGeom center radius x ↔ distP x center ^ 2 < radius) ∧ (0 < ballGeom center 1 x ↔ distP x center < 1) := by
  have hd : dotP (fun i => x i - center i) (fun i => x i - center i) = distP x center ^ 2 := by
    rw [distP, Real.sq_sqrt (sum_nonneg fun i _ => sq_nonneg _)]
    exact sum_congr rfl fun i _ => by ring
  have h0 : 0 ≤ distP x center := Real.sqrt_nonneg _
  have key : ∀ r, 0 < ballGeom center r x ↔ distP x center ^ 2 < r := by
    intro r
    simp only [ballGeom, hd]
    split_ifs with h <;> simp [h]
  refine ⟨by simp only [ballGeom]; split_ifs <;> norm_num, key radius, ?_⟩
  rw [key 1]
  constructor
  · intro h; nlinarith
  · intro h; nlinarith

/-- **C43 is false for balls.** In every dimension `d ≥ 1` the solid of the ball is the open ball with the given radius only for radius one (or no radius), and
a point outside of the ball has the value zero, not a negative value. -/
theorem ball_wrong {d : ℕ} (center : Pt (d + 1)) (radius : ℝ) (hr : 0 < radius) :
    ((∀ x, 0 < ballGeom center radius x ↔ distP x center < radius) ↔ radius = 1) ∧
    (∀ x, radius ≤ distP x center ^ 2 → ballGeom center radius x = 0) := by
  refine ⟨⟨fun h => ?_, fun h => ?_⟩, fun x hx => ?_⟩
  · have hdist : ∀ s : ℝ, 0 ≤ s → distP (fun i => center i + if i = 0 then s else 0) center = s := by
      intro s hs
      simp only [distP, add_sub_cancel_left]
      simp [hs]
    have h1 := h (fun i => center i + if i = 0 then radius else 0)
    rw [(ball_partial center radius _).2.1, hdist radius hr.le] at h1
    have h2 := h (fun i => center i + if i = 0 then Real.sqrt radius else 0)
    rw [(ball_partial center radius _).2.1, hdist _ (Real.sqrt_nonneg _), Real.sq_sqrt hr.le] at h2
    have h1' : radius ≤ radius ^ 2 := by by_contra hc; exact lt_irrefl _ (h1.1 (not_le.1 hc))
    have h2' : radius ≤ Real.sqrt radius := by by_contra hc; exact lt_irrefl _ (h2.2 (not_le.1 hc))
    have hs := Real.sq_sqrt hr.le
    have hs0 := Real.sqrt_pos.2 hr
    have hge : 1 ≤ radius := by nlinarith
    have hle : Real.sqrt radius ≤ 1 := by
      by_contra hc
      have : Real.sqrt radius < Real.sqrt radius ^ 2 := by nlinarith
      linarith
    nlinarith
  · subst h; exact fun x => (ball_partial center 1 x).2.2
  · have := (ball_partial center radius x)
    by_contra hne
    have hp : 0 < ballGeom center radius x := lt_of_le_of_ne this.1 (Ne.symm hne)
    exact absurd (this.2.1.1 hp) (not_lt.2 hx)

/-! ## Polygon -/

theorem dist2_sq (x y : Pt 2) : distP x y ^ 2 = (x 0 - y 0) ^ 2 + (x 1 - y 1) ^ 2 := by
  rw [distP, Real.sq_sqrt (sum_nonneg fun i _ => sq_nonneg _), Fin.sum_univ_two]

/-- **C42 (segment).** The distance of a point from an edge, degenerate edges included, is the least distance of the point from the points of the segment. -/
theorem segDistance_spec (v w p : Pt 2) :
    (∀ t, 0 ≤ t → t ≤ 1 → segDistance v w p ≤ distP p (segPoint v w t)) ∧
    ∃ t, 0 ≤ t ∧ t ≤ 1 ∧ segDistance v w p = distP p (segPoint v w t) := by
  set a := dotP (fun i => p i - v i) (fun i => w i - v i) with ha
  set L := dotP (fun i => w i - v i) (fun i => w i - v i) with hL
  have hf : ∀ t, distP p (segPoint v w t) ^ 2 = dotP (fun i => p i - v i) (fun i => p i - v i) - 2 * t * a + t ^ 2 * L := by
    intro t
    rw [dist2_sq]
    simp only [ha, hL, dotP, Fin.sum_univ_two, segPoint]
    ring
  have hd0 : ∀ x y : Pt 2, 0 ≤ distP x y := fun _ _ => Real.sqrt_nonneg _
  have hle : ∀ s t, dotP (fun i => p i - v i) (fun i => p i - v i) - 2 * s * a + s ^ 2 * L ≤ dotP (fun i => p i - v i) (fun i => p i - v i) - 2 * t * a + t ^ 2 * L →
      distP p (segPoint v w s) ≤ distP p (segPoint v w t) := by
    intro s t h
    rw [← hf, ← hf] at h
    exact (sq_le_sq₀ (hd0 _ _) (hd0 _ _)).1 h
  by_cases hpos : 0 < L
  · have hs : segDistance v w p = distP p (segPoint v w (max (min (a / L) 1) 0)) := by
      simp only [segDistance, ← ha, ← hL, hpos, if_true]
      rw [distP_comm, ← normP_eq_distP]
      rfl
    have hx : a / L * L = a := div_mul_cancel₀ _ hpos.ne'
    refine ⟨fun t h0 h1 => ?_, _, le_max_right _ _, max_le (min_le_right _ _) zero_le_one, hs⟩
    rw [hs]
    apply hle
    generalize a / L = s at hx
    rw [← hx]
    rcases le_total s 0 with h | h
    · rw [min_eq_left (by linarith), max_eq_right h]
      nlinarith [mul_nonneg h0 h0, mul_nonneg h0 (neg_nonneg.2 h), mul_nonneg (mul_nonneg h0 (neg_nonneg.2 h)) hpos.le, mul_nonneg (mul_nonneg h0 h0) hpos.le]
    · rcases le_total s 1 with h' | h'
      · rw [min_eq_left h', max_eq_left h]
        nlinarith [mul_nonneg (sq_nonneg (t - s)) hpos.le]
      · rw [min_eq_right h', max_eq_left zero_le_one]
        nlinarith [mul_nonneg (mul_nonneg (sub_nonneg.2 h1) (sub_nonneg.2 h')) hpos.le, mul_nonneg (mul_nonneg (sub_nonneg.2 h1) (sub_nonneg.2 h1)) hpos.le]
  · have hL0 : L = 0 := le_antisymm (not_lt.1 hpos) (dotP_self_nonneg _)
    have ha0 : a = 0 := by
      have := dotP_cauchy (fun i => p i - v i) (fun i => w i - v i)
      rw [← ha, ← hL, hL0, mul_zero] at this
      nlinarith
    have hs : segDistance v w p = distP p (segPoint v w 0) := by
      simp only [segDistance, ← hL, hpos, if_false]
      rw [distP_comm, ← normP_eq_distP]
      simp [segPoint]
    refine ⟨fun t h0 h1 => ?_, 0, le_refl _, zero_le_one, hs⟩
    rw [hs]
    apply hle
    rw [ha0, hL0]; simp

/-- The crossing counter of an edge is one exactly if the half line to the left crosses it. -/
theorem crossedLine_spec (v w p : Pt 2) : open Classical in crossedLine v w p = if Crosses p (v, w) then 1 else 0 := by
  classical
  have key : (((v 1 < p 1 ∧ p 1 ≤ w 1) ∨ (w 1 < p 1 ∧ p 1 ≤ v 1)) ∧ (1 - (p 1 - v 1) / (w 1 - v 1)) * v 0 + (p 1 - v 1) / (w 1 - v 1) * w 0 < p 0) ↔ Crosses p (v, w) := by
    constructor
    · rintro ⟨hr, hx⟩
      have hne : w 1 - v 1 ≠ 0 := by rcases hr with h | h <;> intro h0 <;> linarith [h.1, h.2]
      refine ⟨?_, (p 1 - v 1) / (w 1 - v 1), ?_, ?_, ?_, hx⟩
      · rcases hr with h | h
        · exact min_lt_of_left_lt h.1
        · exact min_lt_of_right_lt h.1
      · rcases hr with h | h
        · exact div_nonneg (by linarith) (by linarith)
        · exact div_nonneg_of_nonpos (by linarith) (by linarith)
      · rcases hr with h | h
        · rw [div_le_one (by linarith)]; linarith
        · rw [div_le_one_of_neg (by linarith)]; linarith
      · simp only [segPoint]; field_simp; ring
    · rintro ⟨hmin, t, h0, h1, hy, hx⟩
      simp only [segPoint] at hy hx hmin
      have hr : (v 1 < p 1 ∧ p 1 ≤ w 1) ∨ (w 1 < p 1 ∧ p 1 ≤ v 1) := by
        rcases le_total (v 1) (w 1) with h | h
        · left
          rw [min_eq_left h] at hmin
          exact ⟨hmin, by nlinarith⟩
        · right
          rw [min_eq_right h] at hmin
          exact ⟨hmin, by nlinarith⟩
      refine ⟨hr, ?_⟩
      have hne : w 1 - v 1 ≠ 0 := by rcases hr with h | h <;> intro h0 <;> linarith [h.1, h.2]
      have ht : (p 1 - v 1) / (w 1 - v 1) = t := by
        rw [div_eq_iff hne]; linarith
      rw [ht]; exact hx
  simp only [crossedLine, key]

theorem polyLoop_spec {W : ℕ} (hW : 0 < W) (p : Pt 2) : ∀ (n : ℕ) (vs : List (Pt 2)), vs.length = n → vs ≠ [] → ∀ a : PolyAcc W,
    ∃ a', polyLoop p vs a = some a' ∧
      (∀ c : WithTop ℝ, (∀ i, c ≤ a'.minDistance i) ↔ (∀ i, c ≤ a.minDistance i) ∧ ∀ j, j + 1 < vs.length → c ≤ segDistance (vs.getD j 0) (vs.getD (j + 1) 0) p) ∧
      ∑ i, a'.crossed i = ∑ i, a.crossed i + ∑ j ∈ range (vs.length - 1), crossedLine (vs.getD j 0) (vs.getD (j + 1) 0) p := by
  intro n
  induction n using Nat.strong_induction_on with
  | _ n ih =>
    intro vs hn hne a
    unfold polyLoop
    by_cases h : W + 1 < vs.length
    · rw [dif_pos ⟨hW, h⟩]
      simp only [polyChunk, if_pos h.le]
      set a1 : PolyAcc W := ⟨fun i => min (a.minDistance i) (segDistance (vs.getD i 0) (vs.getD (i + 1) 0) p),
        fun i => a.crossed i + crossedLine (vs.getD i 0) (vs.getD (i + 1) 0) p⟩ with ha1
      have hlen : (vs.drop W).length = vs.length - W := List.length_drop
      obtain ⟨a', hr, h1, h2⟩ := ih (vs.drop W).length (by omega) (vs.drop W) rfl (by intro h0; rw [h0] at hlen; simp at hlen; omega) a1
      have hget : ∀ j, (vs.drop W).getD j 0 = vs.getD (W + j) 0 := by intro j; simp [List.getD_eq_getElem?_getD, List.getElem?_drop]
      refine ⟨a', hr, fun c => ?_, ?_⟩
      · rw [h1 c]
        simp only [ha1, le_min_iff, hlen, hget]
        constructor
        · rintro ⟨hc, hd⟩
          refine ⟨fun i => (hc i).1, fun j hj => ?_⟩
          by_cases hjW : j < W
          · exact (hc ⟨j, hjW⟩).2
          · have := hd (j - W) (by omega)
            rw [show W + (j - W) = j by omega, show W + (j - W + 1) = j + 1 by omega] at this
            exact this
        · rintro ⟨hc, hd⟩
          refine ⟨fun i => ⟨hc i, hd i (by omega)⟩, fun j hj => ?_⟩
          have := hd (W + j) (by omega)
          rw [show W + j + 1 = W + (j + 1) by omega] at this
          exact this
      · rw [h2, hlen, show vs.length - 1 = W + (vs.length - W - 1) by omega, sum_range_add]
        simp only [ha1, hget, sum_add_distrib]
        rw [← Fin.sum_univ_eq_sum_range (fun j => crossedLine (vs.getD j 0) (vs.getD (j + 1) 0) p) W]
        simp only [add_assoc]
    · rw [dif_neg (by tauto), if_pos hW]
      have hl : vs.length ≠ 0 := by simpa using hne
      simp only [polyLast]
      rw [if_neg (by omega)]
      refine ⟨_, rfl, fun c => ?_, ?_⟩
      · simp only [le_min_iff]
        constructor
        · intro hc
          refine ⟨fun i => (hc i).1, fun j hj => ?_⟩
          have := (hc ⟨j, by omega⟩).2
          simpa [show j < vs.length - 1 by omega] using this
        · rintro ⟨hc, hd⟩ i
          refine ⟨hc i, ?_⟩
          by_cases hi : (i : ℕ) < vs.length - 1
          · simp only [hi, if_true]; exact hd i (by omega)
          · simp only [hi, if_false]; exact le_top
      · simp only [sum_add_distrib]
        congr 1
        rw [Fin.sum_univ_eq_sum_range (fun j => if j < vs.length - 1 then crossedLine (if j < vs.length - 1 then vs.getD j 0 else 0)
          (if j < vs.length - 1 then vs.getD (j + 1) 0 else 0) p else 0) W]
        rw [← Finset.sum_subset (s₁ := range (vs.length - 1)) (s₂ := range W)]
        · refine sum_congr rfl fun j hj => ?_
          simp only [mem_range.1 hj, if_true]
        · intro j hj
          have := mem_range.1 hj
          exact mem_range.2 (by omega)
        · intro j _ hj
          rw [if_neg (by simpa using hj)]

theorem edgesOf_eq (vs : List (Pt 2)) : edgesOf vs = (List.range (vs.length - 1)).map fun j => (vs.getD j 0, vs.getD (j + 1) 0) := by
  apply List.ext_getElem
  · simp [edgesOf]
  · intro i h1 h2
    simp only [edgesOf, List.length_zip, List.length_tail] at h1
    simp only [edgesOf, List.getElem_zip, List.getElem_tail, List.getElem_map, List.getElem_range]
    simp only [List.getD_eq_getElem?_getD, List.getElem?_eq_getElem (show i < vs.length by omega), List.getElem?_eq_getElem (show i + 1 < vs.length by omega), Option.getD_some]

theorem sum_countP (p : Pt 2) (l : List (Pt 2 × Pt 2)) : open Classical in (l.map fun e => crossedLine e.1 e.2 p).sum = l.countP (fun e => decide (Crosses p e)) := by
  classical
  induction l with
  | nil => rfl
  | cons e es ih =>
    rw [List.map_cons, List.sum_cons, ih, crossedLine_spec, List.countP_cons]
    by_cases h : Crosses p e
    · rw [if_pos (by exact h)]; simp [h, add_comm]
    · rw [if_neg (by exact h)]; simp [h]

/-- **C42.** For every number of vertices (at least one), every SIMD width and every point: the polygon does not access memory outside of its arrays; the
absolute value of the result is the least distance of the point from all points of all edges (infinite if there is no edge); the sign is positive
if and only if the half line from the point to the left crosses an odd number of edges. -/
theorem polygon_distance (W : ℕ) (hW : 0 < W) (vs : List (Pt 2)) (hvs : vs ≠ []) (p : Pt 2) :
    ∃ (sign : ℤ) (d : WithTop ℝ), polygonDistance W vs p = some (sign, d) ∧
      (∀ e ∈ edgesOf vs, ∀ t, 0 ≤ t → t ≤ 1 → d ≤ (distP p (segPoint e.1 e.2 t) : WithTop ℝ)) ∧
      ((edgesOf vs = [] ∧ d = ⊤) ∨ ∃ e ∈ edgesOf vs, ∃ t, 0 ≤ t ∧ t ≤ 1 ∧ d = (distP p (segPoint e.1 e.2 t) : WithTop ℝ)) ∧
      (sign = 1 ∨ sign = -1) ∧ (sign = 1 ↔ open Classical in Odd ((edgesOf vs).countP (fun e => decide (Crosses p e)))) := by
  classical
  obtain ⟨a', hr, h1, h2⟩ := polyLoop_spec hW p _ vs rfl hvs (PolyAcc.init W)
  have hfold : ∀ (l : List (Fin W)) (m c : WithTop ℝ), c ≤ l.foldl (fun m i => min m (a'.minDistance i)) m ↔ c ≤ m ∧ ∀ i ∈ l, c ≤ a'.minDistance i := by
    intro l
    induction l with
    | nil => simp
    | cons i is ih => intro m c; rw [List.foldl_cons, ih, le_min_iff]; simp [and_assoc]
  set d := (List.finRange W).foldl (fun m i => min m (a'.minDistance i)) ⊤ with hd
  have hchar : ∀ c : WithTop ℝ, c ≤ d ↔ ∀ e ∈ edgesOf vs, c ≤ (segDistance e.1 e.2 p : WithTop ℝ) := by
    intro c
    rw [hd, hfold]
    simp only [le_top, true_and, List.mem_finRange, forall_true_left]
    rw [h1 c, edgesOf_eq]
    simp only [PolyAcc.init, le_top, implies_true, true_and, List.mem_map, List.mem_range, forall_exists_index, and_imp, forall_apply_eq_imp_iff₂]
    exact forall_congr' fun j => ⟨fun h hj => h (by omega), fun h hj => h (by omega)⟩
  have hsum : ∑ i, a'.crossed i = (edgesOf vs).countP (fun e => decide (Crosses p e)) := by
    rw [h2, ← sum_countP, edgesOf_eq, List.map_map]
    simp only [PolyAcc.init, sum_const_zero, zero_add]
    rw [Finset.sum_eq_multiset_sum]
    rfl
  refine ⟨_, d, by rw [polygonDistance, hr], ?_, ?_, ?_, ?_⟩
  · intro e he t h0 h1
    exact le_trans ((hchar d).1 le_rfl e he) (WithTop.coe_le_coe.2 ((segDistance_spec e.1 e.2 p).1 t h0 h1))
  · rcases List.eq_nil_or_concat (edgesOf vs) with hnil | ⟨l, b, hl⟩
    · exact Or.inl ⟨hnil, top_le_iff.1 ((hchar ⊤).2 (by simp [hnil]))⟩
    · right
      have hex : ∀ l : List (Pt 2 × Pt 2), l ≠ [] → ∃ e ∈ l, ∀ x ∈ l, segDistance e.1 e.2 p ≤ segDistance x.1 x.2 p := by
        intro l
        induction l with
        | nil => simp
        | cons x xs ih =>
          intro _
          by_cases hx : xs = []
          · subst hx; exact ⟨x, by simp, by simp⟩
          · obtain ⟨e, he, hm⟩ := ih hx
            rcases le_total (segDistance x.1 x.2 p) (segDistance e.1 e.2 p) with h | h
            · refine ⟨x, by simp, fun y hy => ?_⟩
              rcases List.mem_cons.1 hy with rfl | hy
              · exact le_rfl
              · exact le_trans h (hm y hy)
            · refine ⟨e, by simp [he], fun y hy => ?_⟩
              rcases List.mem_cons.1 hy with rfl | hy
              · exact h
              · exact hm y hy
      obtain ⟨e, he, hm⟩ := hex (edgesOf vs) (by rw [hl]; simp)
      obtain ⟨t, h0, h1', ht⟩ := (segDistance_spec e.1 e.2 p).2
      refine ⟨e, he, t, h0, h1', ?_⟩
      rw [← ht]
      refine le_antisymm ((hchar d).1 le_rfl e he) ((hchar _).2 fun x hx => WithTop.coe_le_coe.2 (hm x hx))
  · split_ifs <;> simp
  · rw [hsum, Nat.odd_iff]
    split_ifs with h
    · simp; omega
    · simp; omega

/-- **C42 (width).** The result does not depend on the SIMD width. -/
theorem polygon_width (W W' : ℕ) (hW : 0 < W) (hW' : 0 < W') (vs : List (Pt 2)) (p : Pt 2) : polygonDistance W vs p = polygonDistance W' vs p := by
  by_cases hvs : vs = []
  · subst hvs
    simp [polygonDistance, polyLoop, polyLast, hW, hW']
  · obtain ⟨s, d, h, h1, h2, h3, h4⟩ := polygon_distance W hW vs hvs p
    obtain ⟨s', d', h', h1', h2', h3', h4'⟩ := polygon_distance W' hW' vs hvs p
    have hs : s = s' := by
      rcases h3 with rfl | rfl <;> rcases h3' with rfl | rfl
      · rfl
      · exact absurd (h4'.2 (h4.1 rfl)) (by norm_num)
      · exact absurd (h4.2 (h4'.1 rfl)) (by norm_num)
      · rfl
    have hd : d = d' := by
      rcases h2 with ⟨hn, rfl⟩ | ⟨e, he, t, a, b, rfl⟩
      · rcases h2' with ⟨_, rfl⟩ | ⟨e, he, _⟩
        · rfl
        · rw [hn] at he; simp at he
      · rcases h2' with ⟨hn, _⟩ | ⟨e', he', t', a', b', rfl⟩
        · rw [hn] at he; simp at he
        · exact le_antisymm (h1 e' he' t' a' b') (h1' e he t a b)
    rw [h, h', hs, hd]

/-- **C42 fails without vertices**: the loops over the unused lanes then start at index `-1`. -/
theorem polygon_empty (W : ℕ) (p : Pt 2) : polygonDistance W [] p = none := by
  simp [polygonDistance, polyLoop, polyLast]

/-! ## Cone -/

theorem cone_face (x0 p : Pt 3) (a b h : ℝ) (hh : 0 < h) (rim : Pt 3) (hrim : rim = fun i => x0 i + (![0, a, b] : Pt 3) i) :
    let τ := normalizedP (fun i => (x0 i + h * (![1, 0, 0] : Pt 3) i) - rim i)
    let D := dotP τ (fun i => p i - rim i)
    (D < 0 ↔ h * (p 0 - x0 0) - a * (p 1 - x0 1 - a) - b * (p 2 - x0 2 - b) < 0) ∧ 0 ≤ normP (fun i => rim i + D * τ i - p i) ∧
    (normP (fun i => rim i + D * τ i - p i) = 0 ↔ ∃ s, p 0 - x0 0 = s * h ∧ p 1 - x0 1 = (1 - s) * a ∧ p 2 - x0 2 = (1 - s) * b) := by
  intro τ D
  have hvec : (fun i => (x0 i + h * (![1, 0, 0] : Pt 3) i) - rim i) = (![h, -a, -b] : Pt 3) := by
    subst hrim; funext i; fin_cases i <;> simp
  have hdot : dotP (![h, -a, -b] : Pt 3) ![h, -a, -b] = h ^ 2 + a ^ 2 + b ^ 2 := by simp [dotP, Fin.sum_univ_three]; ring
  have hS : 0 < h ^ 2 + a ^ 2 + b ^ 2 := by positivity
  have hn : normP (![h, -a, -b] : Pt 3) = Real.sqrt (h ^ 2 + a ^ 2 + b ^ 2) := by rw [normP, hdot]
  have hT : 0 < Real.sqrt (h ^ 2 + a ^ 2 + b ^ 2) := Real.sqrt_pos.2 hS
  have hT2 : Real.sqrt (h ^ 2 + a ^ 2 + b ^ 2) ^ 2 = h ^ 2 + a ^ 2 + b ^ 2 := Real.sq_sqrt hS.le
  have hτ : τ = fun i => (![h, -a, -b] : Pt 3) i / Real.sqrt (h ^ 2 + a ^ 2 + b ^ 2) := by
    have e : τ = normalizedP (![h, -a, -b] : Pt 3) := congrArg normalizedP hvec
    rw [e, normalizedP, hdot, if_pos hS, hn]
  generalize Real.sqrt (h ^ 2 + a ^ 2 + b ^ 2) = T at hT hT2 hτ
  have hD : D = (h * (p 0 - x0 0) - a * (p 1 - x0 1 - a) - b * (p 2 - x0 2 - b)) / T := by
    simp only [D, hτ, hrim, dotP, Fin.sum_univ_three]
    simp
    field_simp
    ring
  have hsum : ∀ v : Pt 3, normP v = 0 ↔ v 0 = 0 ∧ v 1 = 0 ∧ v 2 = 0 := by
    intro v
    rw [normP, Real.sqrt_eq_zero (dotP_self_nonneg v), dotP, Fin.sum_univ_three]
    constructor
    · intro h
      have h0 := mul_self_nonneg (v 0); have h1 := mul_self_nonneg (v 1); have h2 := mul_self_nonneg (v 2)
      exact ⟨mul_self_eq_zero.1 (by linarith), mul_self_eq_zero.1 (by linarith), mul_self_eq_zero.1 (by linarith)⟩
    · rintro ⟨h0, h1, h2⟩; simp [h0, h1, h2]
  refine ⟨?_, Real.sqrt_nonneg _, ?_⟩
  · rw [hD, div_lt_iff₀ hT, zero_mul]
  · rw [hsum, hτ, hrim]
    simp
    constructor
    · rintro ⟨h0, h1, h2⟩
      refine ⟨D / T, ?_, ?_, ?_⟩
      · linear_combination (-1 : ℝ) * h0
      · linear_combination (-1 : ℝ) * h1
      · linear_combination (-1 : ℝ) * h2
    · rintro ⟨s, h0, h1, h2⟩
      have hDs : D = s * T := by
        rw [hD, h0, h1, h2, div_eq_iff hT.ne']
        linear_combination (-s) * hT2
      rw [hDs]
      have e : ∀ c : ℝ, s * T * (c / T) = s * c := fun c => by field_simp
      simp only [e]
      refine ⟨by linarith, by linarith, by linarith⟩

theorem cone_outside (eps : ℝ) (x0 : Pt 3) (R h : ℝ) (p : Pt 3) : coneGeom eps x0 R h false p = -coneGeom eps x0 R h true p := by
  simp only [coneGeom, Bool.false_eq_true, if_false, if_true]
  split_ifs <;> simp only [one_mul, neg_mul, neg_neg]

/-- **C43 (cone, sign).** For every cone with positive radius and height: the value is negative inside, positive outside and zero on the boundary, where
within the distance `sqrt eps` from the axis the boundary points of the mantle may get a negative value. With `inside = false` the signs are swapped. -/
theorem cone_sign_partial (eps : ℝ) (heps : 0 ≤ eps) (x0 : Pt 3) (R h : ℝ) (hR : 0 < R) (hh : 0 < h) (p : Pt 3) :
    (InConeInterior x0 R h p → coneGeom eps x0 R h true p < 0) ∧ (¬InCone x0 R h p → 0 < coneGeom eps x0 R h true p) ∧
    (InCone x0 R h p → coneGeom eps x0 R h true p ≤ 0) ∧
    (InCone x0 R h p → ¬InConeInterior x0 R h p → (p 0 = x0 0 ∨ Real.sqrt eps < axisDistance x0 p) → coneGeom eps x0 R h true p = 0) ∧
    coneGeom eps x0 R h false p = -coneGeom eps x0 R h true p := by
  have hl : dotP (![1, 0, 0] : Pt 3) (fun i => p i - x0 i) = p 0 - x0 0 := by simp [dotP, Fin.sum_univ_three]
  have hdp : (fun i => p i - (x0 i + (p 0 - x0 0) * (![1, 0, 0] : Pt 3) i)) = (![0, p 1 - x0 1, p 2 - x0 2] : Pt 3) := by
    funext i; fin_cases i <;> simp
  have hdd : dotP (![0, p 1 - x0 1, p 2 - x0 2] : Pt 3) ![0, p 1 - x0 1, p 2 - x0 2] = (p 1 - x0 1) ^ 2 + (p 2 - x0 2) ^ 2 := by
    simp [dotP, Fin.sum_univ_three]; ring
  have hr : normP (![0, p 1 - x0 1, p 2 - x0 2] : Pt 3) = axisDistance x0 p := by rw [normP, hdd, axisDistance]
  have hr0 : 0 ≤ axisDistance x0 p := Real.sqrt_nonneg _
  have hr2 : axisDistance x0 p ^ 2 = (p 1 - x0 1) ^ 2 + (p 2 - x0 2) ^ 2 := Real.sq_sqrt (by positivity)
  -- the rim point
  obtain ⟨a, b, hab, hrim, hmer⟩ : ∃ a b : ℝ, a ^ 2 + b ^ 2 = R ^ 2 ∧
      (if Real.sqrt eps < axisDistance x0 p then fun i => x0 i + normalizedP (![0, p 1 - x0 1, p 2 - x0 2] : Pt 3) i * R
        else fun i => x0 i + R * (![0, 1, 0] : Pt 3) i) = (fun i => x0 i + (![0, a, b] : Pt 3) i) ∧
      (Real.sqrt eps < axisDistance x0 p → a * axisDistance x0 p = (p 1 - x0 1) * R ∧ b * axisDistance x0 p = (p 2 - x0 2) * R) := by
    by_cases hc : Real.sqrt eps < axisDistance x0 p
    · have hpos : 0 < axisDistance x0 p := lt_of_le_of_lt (Real.sqrt_nonneg _) hc
      refine ⟨(p 1 - x0 1) / axisDistance x0 p * R, (p 2 - x0 2) / axisDistance x0 p * R, ?_, ?_, ?_⟩
      · have : ((p 1 - x0 1) / axisDistance x0 p * R) ^ 2 + ((p 2 - x0 2) / axisDistance x0 p * R) ^ 2 =
            ((p 1 - x0 1) ^ 2 + (p 2 - x0 2) ^ 2) / axisDistance x0 p ^ 2 * R ^ 2 := by field_simp
        rw [this, ← hr2, div_self (by positivity), one_mul]
      · rw [if_pos hc]
        have h0 : 0 < (p 1 - x0 1) ^ 2 + (p 2 - x0 2) ^ 2 := by rw [← hr2]; positivity
        funext i
        simp only [normalizedP, hdd, h0, if_true, hr]
        fin_cases i <;> simp
      · intro _; constructor <;> field_simp
    · refine ⟨R, 0, by ring, ?_, fun h => absurd h hc⟩
      rw [if_neg hc]
      funext i; fin_cases i <;> simp
  obtain ⟨hD, hd0, hdz⟩ := cone_face x0 p a b h hh _ rfl
  generalize hT : normalizedP (fun i => (x0 i + h * (![1, 0, 0] : Pt 3) i) - (x0 i + (![0, a, b] : Pt 3) i)) = τ at hD hd0 hdz
  generalize hDD : dotP τ (fun i => p i - (x0 i + (![0, a, b] : Pt 3) i)) = D at hD hd0 hdz
  generalize hdn : normP (fun i => x0 i + (![0, a, b] : Pt 3) i + D * τ i - p i) = dd at hd0 hdz
  -- Cauchy-Schwarz in the plane
  have hcs : a * (p 1 - x0 1) + b * (p 2 - x0 2) ≤ R * axisDistance x0 p := by
    apply le_of_sq_le_sq ?_ (by positivity)
    rw [mul_pow, ← hab, hr2]
    nlinarith [sq_nonneg (a * (p 2 - x0 2) - b * (p 1 - x0 1))]
  -- a point at distance zero from its projection lies on the mantle
  have hmantle : dd = 0 → 0 ≤ p 0 - x0 0 → p 0 - x0 0 ≤ h → axisDistance x0 p = (1 - (p 0 - x0 0) / h) * R := by
    intro h0 h1 h2
    obtain ⟨s, e0, e1, e2⟩ := hdz.1 h0
    have hs : (p 0 - x0 0) / h = s := by rw [e0]; field_simp
    rw [hs]
    have hs1 : s ≤ 1 := by rw [← hs, div_le_one hh]; exact h2
    apply (sq_eq_sq₀ hr0 (mul_nonneg (by linarith) hR.le)).1
    rw [hr2, e1, e2]; linear_combination (1 - s) ^ 2 * hab
  have hval : coneGeom eps x0 R h true p =
      if p 0 - x0 0 < 0 then
        if axisDistance x0 p < R then -(p 0 - x0 0) else Real.sqrt ((p 0 - x0 0) * (p 0 - x0 0) +
          dotP (fun i => x0 i - (p i - (p 0 - x0 0) * (![1, 0, 0] : Pt 3) i)) (fun i => x0 i - (p i - (p 0 - x0 0) * (![1, 0, 0] : Pt 3) i)))
      else if h < p 0 - x0 0 then normP (fun i => p i - (x0 i + h * (![1, 0, 0] : Pt 3) i))
      else if D < 0 then Real.sqrt ((p 0 - x0 0) * (p 0 - x0 0) + dotP (fun i => p i - (x0 i + (![0, a, b] : Pt 3) i)) (fun i => p i - (x0 i + (![0, a, b] : Pt 3) i)))
      else if (1 - (p 0 - x0 0) / h) * R < axisDistance x0 p then dd else -min dd (p 0 - x0 0) := by
    simp only [coneGeom, hl, hdp, hr, hrim, if_true, one_mul, hT, hDD, hdn]
  have hrad : ∀ l : ℝ, 0 ≤ l → (1 - l / h) * R ≤ R := by
    intro l h0
    have : 0 ≤ l / h := div_nonneg h0 hh.le
    nlinarith
  have hDout : D < 0 → 0 ≤ p 0 - x0 0 → R < axisDistance x0 p := by
    intro h0 h1
    have := hD.1 h0
    have h3 : R ^ 2 < R * axisDistance x0 p := by nlinarith [mul_nonneg hh.le h1]
    nlinarith
  refine ⟨fun hin => ?_, fun hout => ?_, fun hin => ?_, fun hin hnot hax => ?_, cone_outside eps x0 R h p⟩
  · obtain ⟨h1, h2, h3⟩ := hin
    have hDn : ¬D < 0 := fun h0 => by linarith [hDout h0 h1.le, hrad _ h1.le]
    rw [hval, if_neg (not_lt.2 h1.le), if_neg (not_lt.2 h2.le), if_neg hDn, if_neg (not_lt.2 h3.le)]
    have hdpos : 0 < dd := lt_of_le_of_ne hd0 (fun h0 => by linarith [hmantle h0.symm h1.le h2.le])
    have := lt_min hdpos h1
    linarith
  · rw [hval]
    split_ifs with c1 c2 c3 c4 c5
    · linarith
    · apply Real.sqrt_pos.2
      have := dotP_self_nonneg (fun i => x0 i - (p i - (p 0 - x0 0) * (![1, 0, 0] : Pt 3) i))
      have : 0 < (p 0 - x0 0) * (p 0 - x0 0) := mul_pos_of_neg_of_neg c1 c1
      linarith
    · apply Real.sqrt_pos.2
      refine sum_pos' (fun j _ => mul_self_nonneg _) ⟨0, mem_univ _, mul_self_pos.2 ?_⟩
      simp; intro h0; linarith
    · apply Real.sqrt_pos.2
      have hne : dotP (fun i => p i - (x0 i + (![0, a, b] : Pt 3) i)) (fun i => p i - (x0 i + (![0, a, b] : Pt 3) i)) ≠ 0 := by
        intro h0
        rw [dotP, sum_eq_zero_iff_of_nonneg (fun i _ => mul_self_nonneg _)] at h0
        have h1 := mul_self_eq_zero.1 (h0 1 (mem_univ _))
        have h2 := mul_self_eq_zero.1 (h0 2 (mem_univ _))
        simp at h1 h2
        have h3 := hD.1 c4
        have e1 : p 1 - x0 1 - a = 0 := by linarith
        have e2 : p 2 - x0 2 - b = 0 := by linarith
        rw [e1, e2] at h3
        nlinarith [mul_nonneg hh.le (not_lt.1 c1)]
      have := lt_of_le_of_ne (dotP_self_nonneg _) (Ne.symm hne)
      nlinarith [mul_self_nonneg (p 0 - x0 0)]
    · exact lt_of_le_of_ne hd0 (fun h0 => by linarith [hmantle h0.symm (not_lt.1 c1) (not_lt.1 c3)])
    · exact absurd ⟨not_lt.1 c1, not_lt.1 c3, not_lt.1 c5⟩ hout
  · obtain ⟨h1, h2, h3⟩ := hin
    have hDn : ¬D < 0 := fun h0 => by linarith [hDout h0 h1, hrad _ h1]
    rw [hval, if_neg (not_lt.2 h1), if_neg (not_lt.2 h2), if_neg hDn, if_neg (not_lt.2 h3)]
    have := le_min hd0 h1
    linarith
  · obtain ⟨h1, h2, h3⟩ := hin
    have hDn : ¬D < 0 := fun h0 => by linarith [hDout h0 h1, hrad _ h1]
    rw [hval, if_neg (not_lt.2 h1), if_neg (not_lt.2 h2), if_neg hDn, if_neg (not_lt.2 h3)]
    by_cases hl0 : p 0 = x0 0
    · rw [hl0, sub_self, min_eq_right hd0, neg_zero]
    · have hax := hax.resolve_left hl0
      have hpos : 0 < axisDistance x0 p := lt_of_le_of_lt (Real.sqrt_nonneg _) hax
      have h1' : 0 < p 0 - x0 0 := lt_of_le_of_ne h1 (fun h0 => hl0 (by linarith))
      have hlt : p 0 - x0 0 < h := by
        by_contra hc
        have : p 0 - x0 0 = h := le_antisymm h2 (not_lt.1 hc)
        rw [this, div_self hh.ne'] at h3
        linarith
      have heq : axisDistance x0 p = (1 - (p 0 - x0 0) / h) * R := le_antisymm h3 (not_lt.1 fun hc => hnot ⟨h1', hlt, hc⟩)
      obtain ⟨ha, hb⟩ := hmer hax
      have hdd0 : dd = 0 := by
        refine hdz.2 ⟨(p 0 - x0 0) / h, by field_simp, ?_, ?_⟩
        · have : (1 - (p 0 - x0 0) / h) = axisDistance x0 p / R := by rw [heq]; field_simp
          rw [this]; field_simp; linarith
        · have : (1 - (p 0 - x0 0) / h) = axisDistance x0 p / R := by rw [heq]; field_simp
          rw [this]; field_simp; linarith
      rw [hdd0, min_eq_left h1, neg_zero]

/-- **C43: the cone is not a distance.** Behind the base plane and beside the base disc the value is the distance from the base center, although the rim
is nearer by up to the radius: there is a point of the cone at a strictly smaller distance. -/
theorem cone_not_distance (eps : ℝ) (x0 : Pt 3) (R h : ℝ) (hR : 0 < R) (hh : 0 < h) (l y : ℝ) (hl : l < 0) (hy : R ≤ y) :
    let p : Pt 3 := ![x0 0 + l, x0 1 + y, x0 2]
    coneGeom eps x0 R h true p = Real.sqrt (l ^ 2 + y ^ 2) ∧
    ∃ q, InCone x0 R h q ∧ distP p q = Real.sqrt (l ^ 2 + (y - R) ^ 2) ∧ distP p q < coneGeom eps x0 R h true p := by
  intro p
  have hax : Real.sqrt (y ^ 2) = y := Real.sqrt_sq (by linarith)
  have hl' : dotP (![1, 0, 0] : Pt 3) (fun i => p i - x0 i) = l := by simp [dotP, Fin.sum_univ_three, p]
  have hdp : (fun i => p i - (x0 i + l * (![1, 0, 0] : Pt 3) i)) = (![0, y, 0] : Pt 3) := by funext i; fin_cases i <;> simp [p]
  have hr : normP (![0, y, 0] : Pt 3) = y := by simp [normP, dotP, Fin.sum_univ_three]; rw [← pow_two, hax]
  have hv : coneGeom eps x0 R h true p = Real.sqrt (l ^ 2 + y ^ 2) := by
    simp only [coneGeom, hl', hdp, hr, if_pos hl, if_neg (not_lt.2 hy), if_true, one_mul]
    congr 1
    simp [dotP, Fin.sum_univ_three, p]
    ring
  refine ⟨hv, ![x0 0, x0 1 + R, x0 2], ⟨by simp, by simpa using hh.le, ?_⟩, ?_, ?_⟩
  · simp [axisDistance, Real.sqrt_sq hR.le]
  · simp [distP, Fin.sum_univ_three, p]
  · rw [hv]
    have : distP p ![x0 0, x0 1 + R, x0 2] = Real.sqrt (l ^ 2 + (y - R) ^ 2) := by simp [distP, Fin.sum_univ_three, p]
    rw [this]
    exact Real.sqrt_lt_sqrt (by positivity) (by nlinarith)

/-! ## Tube -/

theorem tubeHeights_length (points : List (Pt 3)) : (tubeHeights points).length = points.length - 1 := by
  simp [tubeHeights]

theorem tubePlanesLoop_length (n : Pt 3) (l : List (Pt 3 × Pt 3)) : (tubePlanesLoop n l).length = l.length := by
  induction l generalizing n with
  | nil => rfl
  | cons a as ih => simp [tubePlanesLoop, ih]

theorem tubePlanesLoop_get (n : Pt 3) (l : List (Pt 3 × Pt 3)) (i : ℕ) (hi : i < l.length) :
    (tubePlanesLoop n l).getD i 0 =
      let n0 := if i = 0 then n else (l.getD (i - 1) (0, 0)).1
      let avg := normalizedP fun k => 1 / 2 * (n0 k + (l.getD i (0, 0)).1 k)
      ![avg 0, avg 1, dotP avg (l.getD i (0, 0)).2] := by
  induction l generalizing n i with
  | nil => simp at hi
  | cons e es ih =>
    obtain ⟨m, q⟩ := e
    cases i with
    | zero => simp [tubePlanesLoop]
    | succ j =>
      simp only [List.length_cons, add_lt_add_iff_right] at hi
      simp only [tubePlanesLoop, List.getD_cons_succ, ih m j hi]
      cases j with
      | zero => simp
      | succ k => simp

theorem tubeHeights_get (points : List (Pt 3)) (i : ℕ) (hi : i + 1 < points.length) :
    (tubeHeights points).getD i 0 = normalizedP fun k => points.getD (i + 1) 0 k - points.getD i 0 k := by
  have h1 : i < (tubeHeights points).length := by rw [tubeHeights_length]; omega
  rw [List.getD_eq_getElem?_getD, List.getElem?_eq_getElem h1, Option.getD_some]
  simp only [tubeHeights, List.getElem_zipWith, List.getElem_tail]
  simp only [List.getD_eq_getElem?_getD, List.getElem?_eq_getElem hi, List.getElem?_eq_getElem (show i < points.length by omega), Option.getD_some]

/-- The cut planes of the tube (first two entries: normal, third: offset) at the first, the last and an inner point of the centerline. The direction of the
first section enters as `(0, 1, 0)`, whatever it is. -/
theorem tubePlanes_get (points : List (Pt 3)) (h2 : 2 ≤ points.length) :
    (tubePlanes points).getD 0 0 = ![0, 1, points.getD 0 0 1] ∧
    (tubePlanes points).getD (points.length - 1) 0 = ![0, -1, -points.getD (points.length - 1) 0 1] ∧
    ∀ i, 1 ≤ i → i + 1 < points.length → (tubePlanes points).getD i 0 =
      let before : Pt 3 := if i = 1 then ![0, 1, 0] else normalizedP fun k => points.getD i 0 k - points.getD (i - 1) 0 k
      let after := normalizedP fun k => points.getD (i + 1) 0 k - points.getD i 0 k
      let n := normalizedP fun k => 1 / 2 * (before k + after k)
      ![n 0, n 1, dotP n (points.getD i 0)] := by
  have hlen : ((tubeHeights points).tail.zip points.tail).length = points.length - 2 := by
    simp [tubeHeights_length]; omega
  refine ⟨?_, ?_, ?_⟩
  · cases points with
    | nil => simp at h2
    | cons a as => simp [tubePlanes, dotP, Fin.sum_univ_three]
  · obtain ⟨m, hm⟩ : ∃ m, points.length - 1 = m + 1 := ⟨points.length - 2, by omega⟩
    have hl : points.getLastD 0 = points.getD (points.length - 1) 0 := by
      rw [List.getLastD_eq_getLast?, List.getLast?_eq_getElem?, List.getD_eq_getElem?_getD]
    simp only [tubePlanes, hm, List.getD_cons_succ]
    rw [List.getD_append_right _ _ _ _ (by rw [tubePlanesLoop_length, hlen]; omega), tubePlanesLoop_length, hlen, show m - (points.length - 2) = 0 by omega, hl, hm]
    simp [dotP, Fin.sum_univ_three]
  · intro i h1 hi
    obtain ⟨j, rfl⟩ : ∃ j, i = j + 1 := ⟨i - 1, by omega⟩
    have hget : ∀ k, k + 2 < points.length → ((tubeHeights points).tail.zip points.tail).getD k (0, 0) = ((tubeHeights points).getD (k + 1) 0, points.getD (k + 1) 0) := by
      intro k hk
      have hk1 : k + 1 < (tubeHeights points).length := by rw [tubeHeights_length]; omega
      rw [List.getD_eq_getElem?_getD, List.getElem?_eq_getElem (by rw [hlen]; omega), Option.getD_some, List.getElem_zip, List.getElem_tail, List.getElem_tail,
        List.getD_eq_getElem?_getD, List.getElem?_eq_getElem hk1, Option.getD_some, List.getD_eq_getElem?_getD, List.getElem?_eq_getElem (by omega), Option.getD_some]
    simp only [tubePlanes, List.getD_cons_succ]
    rw [List.getD_append _ _ _ _ (by rw [tubePlanesLoop_length, hlen]; omega), tubePlanesLoop_get _ _ _ (by rw [hlen]; omega), hget j (by omega), tubeHeights_get points (j + 1) hi]
    cases j with
    | zero => simp
    | succ k =>
      rw [if_neg (by omega), if_neg (by omega), show k + 1 - 1 = k by omega, hget k (by omega), tubeHeights_get points (k + 1) (by omega)]
      simp

/-- **C58 (tube).** For a centerline of at least two points the tube is the union of its sections: a point has a positive value if and only if for some section
it is nearer than the radius to the section's axis and strictly between its two cut planes; the arrays are never read out of range. With fewer points there is
no section, and the result is undefined. -/
theorem tube_solid_partial (points : List (Pt 3)) (radius : ℝ) (x : Pt 3) :
    (points.length < 2 → expandTube points radius x = none) ∧
    (2 ≤ points.length → (tubePlanes points).length = points.length ∧ (tubeHeights points).length = points.length - 1 ∧
      ∃ v, expandTube points radius x = some v ∧
        (0 < v ↔ ∃ i, i + 1 < points.length ∧
          let lo := (tubePlanes points).getD i 0
          let hi := (tubePlanes points).getD (i + 1) 0
          let c := points.getD i 0
          let n := normalizedP fun k => points.getD (i + 1) 0 k - points.getD i 0 k
          lo 2 < lo 0 * x 0 + lo 1 * x 1 ∧ hi 0 * x 0 + hi 1 * x 1 < hi 2 ∧
          distP x (fun k => c k + dotP n (fun j => x j - c j) * n k) < radius)) := by
  have hmin : ∀ l : List ℝ, l ≠ [] → ∃ m, l.min? = some m ∧ m ∈ l ∧ ∀ b ∈ l, m ≤ b := by
    intro l hl
    rcases h : l.min? with _ | m
    · exact absurd (List.min?_eq_none_iff.1 h) hl
    · exact ⟨m, rfl, (List.min?_eq_some_iff.1 h).1, (List.min?_eq_some_iff.1 h).2⟩
  constructor
  · intro h
    have : (tubeHeights points).length = 0 := by rw [tubeHeights_length]; omega
    simp [expandTube, this]
  · intro h
    refine ⟨?_, tubeHeights_length points, ?_⟩
    · simp [tubePlanes, tubePlanesLoop_length, tubeHeights_length]; omega
    · set ds := (List.range (tubeHeights points).length).map fun i =>
        tubeSection radius ((tubePlanes points).getD i 0) ((tubePlanes points).getD (i + 1) 0) (points.getD i 0) ((tubeHeights points).getD i 0) x with hds
      have hne : ds ≠ [] := by
        intro h0
        have := congrArg List.length h0
        simp [hds, tubeHeights_length] at this; omega
      obtain ⟨m, hm, hmem, hall⟩ := hmin ds hne
      refine ⟨-m, ?_, ?_⟩
      · simp only [expandTube]; rw [← hds, hm]; rfl
      · have hsec : ∀ i, i + 1 < points.length → (tubeSection radius ((tubePlanes points).getD i 0) ((tubePlanes points).getD (i + 1) 0) (points.getD i 0) ((tubeHeights points).getD i 0) x < 0 ↔
          ((tubePlanes points).getD i 0) 2 < ((tubePlanes points).getD i 0) 0 * x 0 + ((tubePlanes points).getD i 0) 1 * x 1 ∧
          ((tubePlanes points).getD (i + 1) 0) 0 * x 0 + ((tubePlanes points).getD (i + 1) 0) 1 * x 1 < ((tubePlanes points).getD (i + 1) 0) 2 ∧
          distP x (fun k => (points.getD i 0) k + dotP ((tubeHeights points).getD i 0) (fun j => x j - (points.getD i 0) j) * ((tubeHeights points).getD i 0) k) < radius) := by
          intro i _
          simp only [tubeSection, max_lt_iff, sub_neg, and_assoc]
          rw [normP_eq_distP x (fun k => (points.getD i 0) k + dotP ((tubeHeights points).getD i 0) (fun j => x j - (points.getD i 0) j) * ((tubeHeights points).getD i 0) k)]
        have hn : ∀ i, i + 1 < points.length → (normalizedP fun k => points.getD (i + 1) 0 k - points.getD i 0 k) = (tubeHeights points).getD i 0 :=
          fun i hi => (tubeHeights_get points i hi).symm
        constructor
        · intro h0
          obtain ⟨i, hi, him⟩ := List.mem_map.1 hmem
          rw [List.mem_range, tubeHeights_length] at hi
          refine ⟨i, by omega, ?_⟩
          simp only [hn i (by omega)]
          exact (hsec i (by omega)).1 (by rw [him]; linarith)
        · rintro ⟨i, hi, hcond⟩
          simp only [hn i hi] at hcond
          have h0 := (hsec i hi).2 hcond
          have := hall _ (List.mem_map.2 ⟨i, List.mem_range.2 (by rw [tubeHeights_length]; omega), rfl⟩)
          linarith

/-- **C58.** Two neighbouring sections of a tube have no point in common. -/
theorem tube_sections_disjoint (points : List (Pt 3)) (radius : ℝ) (i : ℕ) (c c' n n' x : Pt 3)
    (h1 : tubeSection radius ((tubePlanes points).getD i 0) ((tubePlanes points).getD (i + 1) 0) c n x < 0) :
    ¬tubeSection radius ((tubePlanes points).getD (i + 1) 0) ((tubePlanes points).getD (i + 2) 0) c' n' x < 0 := by
  intro h2
  simp only [tubeSection, max_lt_iff, sub_neg] at h1 h2
  linarith [h1.1.2, h2.1.1]

/-- **C58 is false: a straight tube.** The tube along the segment from `(0, 0, 0)` to `(0, len, 0)` contains no point of the segment, and contains all points of the
axis behind its end: the end plane of every tube is oriented against the second axis, whatever the direction of the last section is. -/
theorem tube_straight_wrong (len radius : ℝ) (hlen : 0 < len) (hr : 0 < radius) :
    (∀ y ≤ len, ∃ v, expandTube [![0, 0, 0], ![0, len, 0]] radius ![0, y, 0] = some v ∧ v ≤ 0) ∧
    (∀ y, len < y → ∃ v, expandTube [![0, 0, 0], ![0, len, 0]] radius ![0, y, 0] = some v ∧ 0 < v) := by
  have hp := tubePlanes_get [![0, 0, 0], ![0, len, 0]] (by simp)
  have hp0 : (tubePlanes [![0, 0, 0], ![0, len, 0]]).getD 0 0 = ![0, 1, 0] := by rw [hp.1]; simp
  have hp1 : (tubePlanes [![0, 0, 0], ![0, len, 0]]).getD 1 0 = ![0, -1, -len] := by have := hp.2.1; simpa using this
  have hn : (normalizedP fun k => (![0, len, 0] : Pt 3) k - (![0, 0, 0] : Pt 3) k) = ![0, 1, 0] := by
    have h0 : (fun k => (![0, len, 0] : Pt 3) k - (![0, 0, 0] : Pt 3) k) = ![0, len, 0] := by funext k; fin_cases k <;> simp
    have h1 : dotP (![0, len, 0] : Pt 3) ![0, len, 0] = len * len := by simp [dotP, Fin.sum_univ_three]
    have h2 : normP (![0, len, 0] : Pt 3) = len := by rw [normP, h1, Real.sqrt_mul_self hlen.le]
    rw [h0, normalizedP, h1, if_pos (by positivity), h2]
    funext k; fin_cases k <;> simp [hlen.ne']
  have key : ∀ y, ∃ v, expandTube [![0, 0, 0], ![0, len, 0]] radius ![0, y, 0] = some v ∧ (0 < v ↔ 0 < y ∧ len < y) := by
    intro y
    obtain ⟨-, -, v, hv, hiff⟩ := (tube_solid_partial [![0, 0, 0], ![0, len, 0]] radius ![0, y, 0]).2 (by simp)
    refine ⟨v, hv, hiff.trans ?_⟩
    have hd : distP ![0, y, 0] (fun k => (![0, 0, 0] : Pt 3) k + dotP ![0, 1, 0] (fun j => (![0, y, 0] : Pt 3) j - (![0, 0, 0] : Pt 3) j) * (![0, 1, 0] : Pt 3) k) = 0 := by
      simp [distP, Fin.sum_univ_three, dotP]
    constructor
    · rintro ⟨i, hi, h⟩
      have : i = 0 := by simp at hi; omega
      subst this
      simp only [zero_add, hp0, hp1] at h
      have h1 := h.1; have h2 := h.2.1
      simp at h1 h2
      exact ⟨h1, h2⟩
    · rintro ⟨h1, h2⟩
      refine ⟨0, by simp, ?_⟩
      simp only [zero_add, hp0, hp1, List.getD_cons_succ, List.getD_cons_zero, hn, hd]
      refine ⟨by simpa using h1, by simpa using h2, hr⟩
  constructor
  · intro y hy
    obtain ⟨v, hv, h⟩ := key y
    exact ⟨v, hv, not_lt.1 fun h0 => absurd (h.1 h0).2 (not_lt.2 hy)⟩
  · intro y hy
    obtain ⟨v, hv, h⟩ := key y
    exact ⟨v, hv, h.2 ⟨by linarith, hy⟩⟩

/-! ## Concrete cases -/

/-- The unit square as a closed polygon with five vertices; the edges are processed in three chunks of width two. The point `(1/2, 1/2)` is inside: exactly the
left edge is crossed. -/
example : let sq : List (Pt 2) := [![0, 0], ![1, 0], ![1, 1], ![0, 1], ![0, 0]]
    sq ≠ [] ∧ Crosses ![1 / 2, 1 / 2] (![0, 1], ![0, 0]) ∧ ¬Crosses ![1 / 2, 1 / 2] (![1, 0], ![1, 1]) ∧
    polygonDistance 2 sq ![1 / 2, 1 / 2] = polygonDistance 8 sq ![1 / 2, 1 / 2] := by
  refine ⟨by simp, ⟨by norm_num, 1 / 2, by norm_num, by norm_num, by norm_num [segPoint], by norm_num [segPoint]⟩, ?_, polygon_width 2 8 (by norm_num) (by norm_num) _ _⟩
  rintro ⟨_, t, _, _, _, h⟩
  simp [segPoint] at h
  norm_num at h

/-- A cone with radius one and height two, a point inside, one outside and one on the mantle. -/
example : InConeInterior ![0, 0, 0] 1 2 ![1 / 2, 0, 1 / 2] ∧ ¬InCone ![0, 0, 0] 1 2 ![1, 1, 0] ∧ InCone ![0, 0, 0] 1 2 ![1, 1 / 2, 0] ∧
    ¬InConeInterior ![0, 0, 0] 1 2 ![1, 1 / 2, 0] := by
  have h1 : Real.sqrt ((1 / 2 : ℝ) ^ 2) = 1 / 2 := Real.sqrt_sq (by norm_num)
  have h2 : Real.sqrt ((1 : ℝ) ^ 2) = 1 := Real.sqrt_sq (by norm_num)
  simp only [InConeInterior, InCone, axisDistance, Matrix.cons_val]
  norm_num at h1 h2 ⊢
  rw [h1]
  norm_num

/-- A half space with a direction that is not normalised. -/
example : (∃ i, (![3, 0, 4] : Pt 3) i ≠ 0) ∧ halfspace ![3, 0, 4] 1 ![3, 7, 4] = 4 := by
  refine ⟨⟨0, by norm_num⟩, ?_⟩
  have h1 : dotP (![3, 0, 4] : Pt 3) ![3, 0, 4] = 5 * 5 := by simp [dotP, Fin.sum_univ_three]; norm_num
  have h2 : normP (![3, 0, 4] : Pt 3) = 5 := by rw [normP, h1, Real.sqrt_mul_self (by norm_num)]
  rw [halfspace, normalizedP, h1, if_pos (by norm_num), h2]
  simp [dotP, Fin.sum_univ_three]; norm_num

/-- A tube along two segments; three points, two sections. -/
example : (2 : ℕ) ≤ ([![0, 0, 0], ![0, 2, 0], ![1, 3, 0]] : List (Pt 3)).length := by simp

end Fub
