import Verif.Spec.HGridPolygon
import Mathlib.Analysis.Convex.Combination
import Mathlib.Data.Sign.Basic
import Mathlib.Algebra.BigOperators.Group.List.Basic
import Mathlib.Data.List.Rotate
import Mathlib.Tactic.Linarith
import Mathlib.Tactic.Ring
import Mathlib.Tactic.FieldSimp
import Mathlib.Tactic.NormNum

/-! # Polygons of the cells at an embedded boundary: C158 -/

namespace Fub

/-! ### The polygon of a cell -/

theorem wallEnds_eq (h xC : ℝ × ℝ) (w : WallCell ℝ) (P Q : ℝ × ℝ) (hw : IsWallOf h xC w P Q) : wallEnds h w = (P, Q) := by
  obtain ⟨c1, c2⟩ := hw.closed
  have m := hw.middle
  unfold wallEnds WallCell.dx WallCell.dy
  rw [m]
  refine Prod.ext (Prod.ext ?_ ?_) (Prod.ext ?_ ?_)
  · change (P.1 + Q.1) / 2 - 1 / 2 * (w.byR - w.byL) * h.1 = P.1
    linear_combination (-1 / 2) * c2
  · change (P.2 + Q.2) / 2 + 1 / 2 * (w.bxR - w.bxL) * h.2 = P.2
    linear_combination (1 / 2) * c1
  · change (P.1 + Q.1) / 2 + 1 / 2 * (w.byR - w.byL) * h.1 = Q.1
    linear_combination (1 / 2) * c2
  · change (P.2 + Q.2) / 2 - 1 / 2 * (w.bxR - w.bxL) * h.2 = Q.2
    linear_combination (-1 / 2) * c1

theorem mem_seg (a b x : ℝ × ℝ) (t : ℝ) (h0 : 0 ≤ t) (h1 : t ≤ 1) (e1 : x.1 = a.1 + t * (b.1 - a.1)) (e2 : x.2 = a.2 + t * (b.2 - a.2)) : x ∈ segment ℝ a b := by
  refine ⟨1 - t, t, by linarith, h0, by ring, ?_⟩
  apply Prod.ext
  · simp only [Prod.fst_add, Prod.smul_fst, smul_eq_mul, e1]; ring
  · simp only [Prod.snd_add, Prod.smul_snd, smul_eq_mul, e2]; ring

/-- The set of the corners of a cell. -/
def cornerSet (h xC : ℝ × ℝ) : Set (ℝ × ℝ) := {x | x ∈ cellCorners h xC}

theorem cellSet_hull (h xC : ℝ × ℝ) (h1 : 0 < h.1) (h2 : 0 < h.2) : cellSet h xC ⊆ convexHull ℝ (cornerSet h xC) := by
  rintro x ⟨hx, hy⟩
  rw [abs_le] at hx hy
  have hc := convex_convexHull ℝ (cornerSet h xC)
  have m1 : (xC.1 - 1 / 2 * h.1, xC.2 - 1 / 2 * h.2) ∈ convexHull ℝ (cornerSet h xC) := subset_convexHull _ _ (by simp [cornerSet, cellCorners])
  have m2 : (xC.1 + 1 / 2 * h.1, xC.2 + 1 / 2 * h.2) ∈ convexHull ℝ (cornerSet h xC) := subset_convexHull _ _ (by simp [cornerSet, cellCorners])
  have m3 : (xC.1 + 1 / 2 * h.1, xC.2 - 1 / 2 * h.2) ∈ convexHull ℝ (cornerSet h xC) := subset_convexHull _ _ (by simp [cornerSet, cellCorners])
  have m4 : (xC.1 - 1 / 2 * h.1, xC.2 + 1 / 2 * h.2) ∈ convexHull ℝ (cornerSet h xC) := subset_convexHull _ _ (by simp [cornerSet, cellCorners])
  have t0 : 0 ≤ (x.1 - xC.1 + h.1 / 2) / h.1 := div_nonneg (by linarith) h1.le
  have t1 : (x.1 - xC.1 + h.1 / 2) / h.1 ≤ 1 := by rw [div_le_one h1]; linarith
  have s0 : 0 ≤ (x.2 - xC.2 + h.2 / 2) / h.2 := div_nonneg (by linarith) h2.le
  have s1 : (x.2 - xC.2 + h.2 / 2) / h.2 ≤ 1 := by rw [div_le_one h2]; linarith
  have b : (x.1, xC.2 - 1 / 2 * h.2) ∈ convexHull ℝ (cornerSet h xC) := by
    refine hc.segment_subset m1 m3 (mem_seg _ _ _ _ t0 t1 ?_ ?_)
    · field_simp; ring
    · ring
  have t : (x.1, xC.2 + 1 / 2 * h.2) ∈ convexHull ℝ (cornerSet h xC) := by
    refine hc.segment_subset m4 m2 (mem_seg _ _ _ _ t0 t1 ?_ ?_)
    · field_simp; ring
    · ring
  refine hc.segment_subset b t (mem_seg _ _ _ _ s0 s1 ?_ ?_)
  · ring
  · field_simp; ring

theorem convex_cellSet (h xC : ℝ × ℝ) : Convex ℝ (cellSet h xC) := by
  rintro x ⟨hx1, hx2⟩ y ⟨hy1, hy2⟩ a b ha hb hab
  rw [abs_le] at hx1 hx2 hy1 hy2
  have e1 : (a • x + b • y).1 = a * x.1 + b * y.1 := by simp
  have e2 : (a • x + b • y).2 = a * x.2 + b * y.2 := by simp
  have hb' : b = 1 - a := by linarith
  have key : ∀ s t c r : ℝ, -r ≤ s - c → s - c ≤ r → -r ≤ t - c → t - c ≤ r → |a * s + b * t - c| ≤ r := by
    intro s t c r p1 p2 p3 p4
    have e : a * s + b * t - c = a * (s - c) + b * (t - c) := by rw [hb']; ring
    have er : r = a * r + b * r := by rw [hb']; ring
    rw [e, abs_le]
    have q1 := mul_le_mul_of_nonneg_left p1 ha
    have q2 := mul_le_mul_of_nonneg_left p2 ha
    have q3 := mul_le_mul_of_nonneg_left p3 hb
    have q4 := mul_le_mul_of_nonneg_left p4 hb
    constructor <;> linarith
  constructor
  · rw [e1]; exact key _ _ _ _ hx1.1 hx1.2 hy1.1 hy1.2
  · rw [e2]; exact key _ _ _ _ hx2.1 hx2.2 hy2.1 hy2.2

theorem convex_front (n q : ℝ × ℝ) : Convex ℝ {x : ℝ × ℝ | 0 ≤ wdot n (x.1 - q.1, x.2 - q.2)} := by
  intro x hx y hy a b ha hb hab
  have hx' : 0 ≤ wdot n (x.1 - q.1, x.2 - q.2) := hx
  have hy' : 0 ≤ wdot n (y.1 - q.1, y.2 - q.2) := hy
  change 0 ≤ wdot n ((a • x + b • y).1 - q.1, (a • x + b • y).2 - q.2)
  have e : wdot n ((a • x + b • y).1 - q.1, (a • x + b • y).2 - q.2) = a * wdot n (x.1 - q.1, x.2 - q.2) + b * wdot n (y.1 - q.1, y.2 - q.2) := by
    have hb' : b = 1 - a := by linarith
    unfold wdot
    simp only [Prod.fst_add, Prod.snd_add, Prod.smul_fst, Prod.smul_snd, smul_eq_mul]
    rw [hb']
    ring
  rw [e]
  exact add_nonneg (mul_nonneg ha hx') (mul_nonneg hb hy')

theorem convex_behind (n q : ℝ × ℝ) : Convex ℝ {x : ℝ × ℝ | wdot n (x.1 - q.1, x.2 - q.2) ≤ 0} := by
  have : {x : ℝ × ℝ | wdot n (x.1 - q.1, x.2 - q.2) ≤ 0} = {x : ℝ × ℝ | 0 ≤ wdot (-n.1, -n.2) (x.1 - q.1, x.2 - q.2)} := by
    ext x
    unfold wdot
    simp only [Set.mem_ofPred_eq]
    constructor <;> intro h <;> linarith
  rw [this]
  exact convex_front _ q

theorem corner_in_cell (h xC : ℝ × ℝ) (h1 : 0 < h.1) (h2 : 0 < h.2) (x : ℝ × ℝ) (hx : x ∈ cellCorners h xC) : x ∈ cellSet h xC := by
  simp only [cellCorners, List.mem_cons, List.not_mem_nil, or_false] at hx
  rcases hx with rfl | rfl | rfl | rfl <;> constructor <;> rw [abs_le] <;> constructor <;> dsimp only <;> linarith

/-- A point of the cell in front of the wall lies between a point in the hull of the corners in front of the wall and a point of the wall. -/
theorem fluid_in_hull (h xC n q : ℝ × ℝ) (h1 : 0 < h.1) (h2 : 0 < h.2) (S : Set (ℝ × ℝ)) (hS : Convex ℝ S)
    (hc : ∀ x ∈ cellCorners h xC, 0 < wdot n (x.1 - q.1, x.2 - q.2) → x ∈ S) (hwall : ∀ x ∈ cellSet h xC, wdot n (x.1 - q.1, x.2 - q.2) = 0 → x ∈ S) :
    fluidPart h xC n q ⊆ S := by
  rintro x ⟨hx, hpos⟩
  have hxh := cellSet_hull h xC h1 h2 hx
  have hsplit : cornerSet h xC = {x | x ∈ cellCorners h xC ∧ 0 < wdot n (x.1 - q.1, x.2 - q.2)} ∪ {x | x ∈ cellCorners h xC ∧ wdot n (x.1 - q.1, x.2 - q.2) ≤ 0} := by
    ext y
    simp only [cornerSet, Set.mem_ofPred_eq, Set.mem_union]
    constructor
    · intro hy
      rcases lt_or_ge 0 (wdot n (y.1 - q.1, y.2 - q.2)) with h | h
      · exact Or.inl ⟨hy, h⟩
      · exact Or.inr ⟨hy, h⟩
    · rintro (h | h) <;> exact h.1
  generalize hA : {x : ℝ × ℝ | x ∈ cellCorners h xC ∧ 0 < wdot n (x.1 - q.1, x.2 - q.2)} = A at hsplit
  generalize hB : {x : ℝ × ℝ | x ∈ cellCorners h xC ∧ wdot n (x.1 - q.1, x.2 - q.2) ≤ 0} = B at hsplit
  have hAS : convexHull ℝ A ⊆ S := convexHull_min (by subst hA; exact fun y hy => hc y hy.1 hy.2) hS
  have hAc : convexHull ℝ A ⊆ cellSet h xC := convexHull_min (by subst hA; exact fun y hy => corner_in_cell h xC h1 h2 y hy.1) (convex_cellSet h xC)
  have hBc : convexHull ℝ B ⊆ cellSet h xC := convexHull_min (by subst hB; exact fun y hy => corner_in_cell h xC h1 h2 y hy.1) (convex_cellSet h xC)
  have hAf : convexHull ℝ A ⊆ {x : ℝ × ℝ | 0 ≤ wdot n (x.1 - q.1, x.2 - q.2)} := convexHull_min (by subst hA; exact fun y hy => hy.2.le) (convex_front n q)
  have hBb : convexHull ℝ B ⊆ {x : ℝ × ℝ | wdot n (x.1 - q.1, x.2 - q.2) ≤ 0} := convexHull_min (by subst hB; exact fun y hy => hy.2) (convex_behind n q)
  rw [hsplit] at hxh
  rcases A.eq_empty_or_nonempty with hA0 | hA0
  · rw [hA0, Set.empty_union] at hxh
    exact hwall x hx (le_antisymm (hBb hxh) hpos)
  rcases B.eq_empty_or_nonempty with hB0 | hB0
  · rw [hB0, Set.union_empty] at hxh
    exact hAS hxh
  rw [convexHull_union hA0 hB0] at hxh
  obtain ⟨a, ha, b, hb, hab⟩ := mem_convexJoin.1 hxh
  have fa : 0 ≤ wdot n (a.1 - q.1, a.2 - q.2) := hAf ha
  have fb : wdot n (b.1 - q.1, b.2 - q.2) ≤ 0 := hBb hb
  obtain ⟨u, v, hu, hv, huv, rfl⟩ := hab
  have hu' : u = 1 - v := by linarith
  have ex : wdot n ((u • a + v • b).1 - q.1, (u • a + v • b).2 - q.2) = u * wdot n (a.1 - q.1, a.2 - q.2) + v * wdot n (b.1 - q.1, b.2 - q.2) := by
    unfold wdot
    simp only [Prod.fst_add, Prod.snd_add, Prod.smul_fst, Prod.smul_snd, smul_eq_mul]
    rw [hu']
    ring
  rw [ex] at hpos
  by_cases hab0 : wdot n (a.1 - q.1, a.2 - q.2) - wdot n (b.1 - q.1, b.2 - q.2) = 0
  · have z1 : wdot n (a.1 - q.1, a.2 - q.2) = 0 := by linarith
    have z2 : wdot n (b.1 - q.1, b.2 - q.2) = 0 := by linarith
    exact hS (hAS ha) (hwall b (hBc hb) z2) hu hv huv
  · generalize hfa : wdot n (a.1 - q.1, a.2 - q.2) = s at *
    generalize hfb : wdot n (b.1 - q.1, b.2 - q.2) = r at *
    have hd : 0 < s - r := lt_of_le_of_ne (by linarith) (Ne.symm hab0)
    -- the point of the wall between `a` and `b`
    have hz : (1 - s / (s - r)) • a + (s / (s - r)) • b ∈ cellSet h xC := by
      have l0 : 0 ≤ s / (s - r) := div_nonneg fa hd.le
      have l1 : s / (s - r) ≤ 1 := by rw [div_le_one hd]; linarith
      exact convex_cellSet h xC (hAc ha) (hBc hb) (by linarith) l0 (by ring)
    have hz0 : wdot n (((1 - s / (s - r)) • a + (s / (s - r)) • b).1 - q.1, ((1 - s / (s - r)) • a + (s / (s - r)) • b).2 - q.2) = 0 := by
      have : wdot n (((1 - s / (s - r)) • a + (s / (s - r)) • b).1 - q.1, ((1 - s / (s - r)) • a + (s / (s - r)) • b).2 - q.2) = (1 - s / (s - r)) * s + s / (s - r) * r := by
        rw [← hfa, ← hfb]
        unfold wdot
        simp only [Prod.fst_add, Prod.snd_add, Prod.smul_fst, Prod.smul_snd, smul_eq_mul]
        ring
      rw [this]
      field_simp
      ring
    have hzS := hwall _ hz hz0
    by_cases hs0 : s = 0
    · -- `a` is on the wall, so `b` has no weight or is on the wall as well
      subst hs0
      have hvr : v * r = 0 := le_antisymm (mul_nonpos_of_nonneg_of_nonpos hv fb) (by linarith)
      have hr : r ≠ 0 := by intro e; subst e; simp at hd
      have hv0 : v = 0 := by
        rcases mul_eq_zero.1 hvr with h | h
        · exact h
        · exact absurd h hr
      have hu1 : u = 1 := by linarith
      rw [hv0, hu1, one_smul, zero_smul, add_zero]
      exact hAS ha
    · have hs : 0 < s := lt_of_le_of_ne fa (Ne.symm hs0)
      have hv1 : v * (s - r) / s ≤ 1 := by
        rw [div_le_one hs]
        rw [hu'] at hpos
        linarith
      have key : u • a + v • b = (1 - v * (s - r) / s) • a + (v * (s - r) / s) • ((1 - s / (s - r)) • a + (s / (s - r)) • b) := by
        rw [smul_add, smul_smul, smul_smul, ← add_assoc, ← add_smul]
        congr 2
        · rw [hu']; field_simp; ring
        · field_simp
      rw [key]
      exact hS (hAS ha) hzS (by linarith) (div_nonneg (mul_nonneg hv hd.le) hs.le) (by ring)

/-- C158: the polygon of a cell is its part in the fluid: for a cell without a wall the whole cell, for a cell with a straight wall the part in front of it, for a covered cell nothing. -/
theorem cell_polygon_fluid (h xC : ℝ × ℝ) (h1 : 0 < h.1) (h2 : 0 < h.2) (vol : ℝ) (w : WallCell ℝ) (P Q : ℝ × ℝ) :
    (0 < vol → vol < 1 → IsWallOf h xC w P Q → convexHull ℝ {x | x ∈ cellPoints h xC vol w} = fluidPart h xC w.xN w.xB) ∧
    convexHull ℝ {x | x ∈ cellPoints h xC 1 w} = cellSet h xC ∧
    (vol ≤ 0 → cellPoints h xC vol w = []) := by
  refine ⟨?_, ?_, ?_⟩
  · intro hv0 hv1 hw
    have hend := wallEnds_eq h xC w P Q hw
    have hpts : cellPoints h xC vol w = P :: Q :: (cellCorners h xC).filter fun x : ℝ × ℝ => decide (w.xN.1 * (w.xB.1 - x.1) + w.xN.2 * (w.xB.2 - x.2) < 0) := by
      unfold cellPoints
      rw [if_neg hv1.ne, if_pos hv0, hend]
    have hmid := hw.middle
    have hnorm := hw.normal
    have fP : wdot w.xN (P.1 - w.xB.1, P.2 - w.xB.2) = 0 := by
      rw [hmid]
      unfold wdot at hnorm ⊢
      dsimp only at hnorm ⊢
      linear_combination (1 / 2) * hnorm
    have fQ : wdot w.xN (Q.1 - w.xB.1, Q.2 - w.xB.2) = 0 := by
      rw [hmid]
      unfold wdot at hnorm ⊢
      dsimp only at hnorm ⊢
      linear_combination (-1 / 2) * hnorm
    apply Set.Subset.antisymm
    · apply convexHull_min
      · intro x hx
        rw [Set.mem_ofPred_eq, hpts] at hx
        rcases List.mem_cons.1 hx with rfl | hx
        · exact ⟨hw.inside.1, fP.ge⟩
        · rcases List.mem_cons.1 hx with rfl | hx
          · exact ⟨hw.inside.2, fQ.ge⟩
          · obtain ⟨hx1, hx2⟩ := List.mem_filter.1 hx
            rw [decide_eq_true_eq] at hx2
            refine ⟨corner_in_cell h xC h1 h2 x hx1, ?_⟩
            unfold wdot
            dsimp only
            linarith
      · exact (convex_cellSet h xC).inter (convex_front w.xN w.xB)
    · apply fluid_in_hull h xC w.xN w.xB h1 h2 _ (convex_convexHull ℝ _)
      · intro x hx hpos
        apply subset_convexHull
        rw [Set.mem_ofPred_eq, hpts]
        refine List.mem_cons_of_mem _ (List.mem_cons_of_mem _ (List.mem_filter.2 ⟨hx, ?_⟩))
        rw [decide_eq_true_eq]
        unfold wdot at hpos
        dsimp only at hpos
        linarith
      · intro x hx h0
        have hseg := hw.all x hx h0
        refine (convex_convexHull ℝ _).segment_subset (subset_convexHull _ _ ?_) (subset_convexHull _ _ ?_) hseg
        · rw [Set.mem_ofPred_eq, hpts]; simp
        · rw [Set.mem_ofPred_eq, hpts]; simp
  · have hpts : {x | x ∈ cellPoints h xC 1 w} = cornerSet h xC := by
      unfold cellPoints cornerSet cellCorners
      rw [if_pos rfl]
      ext x
      simp only [Set.mem_ofPred_eq, List.mem_cons, List.not_mem_nil, or_false]
      tauto
    rw [hpts]
    apply Set.Subset.antisymm
    · exact convexHull_min (fun x hx => corner_in_cell h xC h1 h2 x hx) (convex_cellSet h xC)
    · exact cellSet_hull h xC h1 h2
  · intro hv
    unfold cellPoints
    rw [if_neg (by linarith), if_neg (not_lt.2 hv)]

/-- A wall from the middle of the lower face to the middle of the upper face of the unit cell at the origin, with the fluid on the right. -/
noncomputable def wallHalf : WallCell ℝ := ⟨0, 1, 1 / 2, 1 / 2, (0, 0), (1, 0)⟩

theorem wallHalf_isWall : IsWallOf (1, 1) (0, 0) wallHalf (0, 1 / 2) (0, -1 / 2) := by
  refine ⟨⟨⟨?_, ?_⟩, ⟨?_, ?_⟩⟩, ?_, ?_, ?_, ?_, ?_⟩
  · norm_num
  · norm_num [abs_le]
  · norm_num
  · norm_num [abs_le]
  · rintro x ⟨hx, hy⟩ h0
    have e : x.1 = 0 := by simpa [wallHalf, wdot] using h0
    simp only [sub_zero, abs_le] at hy
    refine mem_seg _ _ _ (1 / 2 - x.2) (by linarith) (by linarith) ?_ ?_
    · rw [e]; ring
    · ring
  · norm_num [wallHalf]
  · norm_num [wallHalf, wdot]
  · norm_num [wallHalf]
  · norm_num [wallHalf]

example : convexHull ℝ {x | x ∈ cellPoints (1, 1) (0, 0) (1 / 2) wallHalf} = fluidPart (1, 1) (0, 0) (1, 0) (0, 0) :=
  (cell_polygon_fluid (1, 1) (0, 0) one_pos one_pos (1 / 2) wallHalf _ _).1 (by norm_num) (by norm_num) wallHalf_isWall

/-! ### The mirror cell and the inner cell -/

section
variable {K : Type} [Field K] [LinearOrder K] [IsStrictOrderedRing K]

theorem signOf_pos {x : K} (h : 0 < x) : signOf x = 1 := by unfold signOf; rw [if_pos h, if_neg (not_lt.2 h.le), sub_zero]

theorem signOf_neg {x : K} (h : x < 0) : signOf x = -1 := by unfold signOf; rw [if_neg (not_lt.2 h.le), if_pos h, zero_sub]

theorem signOf_mul {x : K} (h : x ≠ 0) : signOf x * x = |x| ∧ signOf x * signOf x = 1 := by
  rcases lt_or_gt_of_ne h with h | h
  · rw [signOf_neg h, abs_of_neg h]; constructor <;> ring
  · rw [signOf_pos h, abs_of_pos h]; constructor <;> ring

theorem shoelace_four (a b c d : K × K) : shoelace [a, b, c, d] = (c.1 - a.1) * (d.2 - b.2) - (d.1 - b.1) * (c.2 - a.2) := by
  simp only [shoelace, List.rotate, List.zip, List.zipWith, List.map, List.sum_cons, List.sum_nil, List.length_cons, List.length_nil]
  simp
  ring

/-- The two polygons in the first direction. -/
theorem hgrid_polygons_x (h : K × K) (w : WallCell K) (len : K) (h1 : 0 < h.1) (h2 : 0 < h.2) (hc : ClosedBy h w len) (hy : |w.byR - w.byL| ≤ 1) (hd : w.bxR - w.bxL ≠ 0) :
    (∃ A B C D C' D' : K × K, hgridBoundaryX h w = [A, B, C, D] ∧ WallTrapezoid true w.xB w.xN len (-(signOf (w.bxR - w.bxL) * h.1)) A B C' D' ∧
      IsMirrorImage w.xN w.xB C C' ∧ IsMirrorImage w.xN w.xB D D' ∧
      0 < wdot w.xN (C.1 - w.xB.1, C.2 - w.xB.2) ∧ 0 < wdot w.xN (D.1 - w.xB.1, D.2 - w.xB.2) ∧ |shoelace [A, C, D, B]| = 2 * (|w.bxR - w.bxL| * h.1 * h.2)) ∧
    (∃ A B C D : K × K, hgridInnerX h w = [B, A, D, C] ∧ WallTrapezoid true w.xB w.xN len (signOf (w.bxR - w.bxL) * h.1) A B C D ∧
      0 < wdot w.xN (C.1 - w.xB.1, C.2 - w.xB.2) ∧ 0 < wdot w.xN (D.1 - w.xB.1, D.2 - w.xB.2) ∧ |shoelace [A, C, D, B]| = 2 * (|w.bxR - w.bxL| * h.1 * h.2)) := by
  obtain ⟨hl, hu, e1, e2⟩ := hc
  obtain ⟨bxL, bxR, byL, byR, ⟨b1, b2⟩, ⟨n1, n2⟩⟩ := w
  obtain ⟨g1, g2⟩ := h
  unfold wdot at hu
  dsimp only at *
  have hnot : ¬ (WallCell.dx (⟨bxL, bxR, byL, byR, (b1, b2), (n1, n2)⟩ : WallCell K) = 0 ∧ WallCell.dy (⟨bxL, bxR, byL, byR, (b1, b2), (n1, n2)⟩ : WallCell K) = 0) := fun h => hd h.1
  obtain ⟨hs1, hs2⟩ := signOf_mul hd
  have hpos := abs_pos.2 hd
  unfold hgridBoundaryX hgridInnerX
  rw [if_neg hnot, if_neg hnot]
  unfold wallEnds behindWall mirrorAt WallCell.dx WallCell.dy
  dsimp only
  generalize hx : bxR - bxL = x at *
  generalize hyy : byR - byL = y at *
  generalize signOf x = s at *
  rw [abs_le] at hy
  -- the products of numbers of absolute value one
  have hsy : -1 ≤ s * y ∧ s * y ≤ 1 := by
    have hs : s = 1 ∨ s = -1 := by
      have : (s - 1) * (s + 1) = 0 := by linear_combination hs2
      rcases mul_eq_zero.1 this with h | h
      · exact Or.inl (by linear_combination h)
      · exact Or.inr (by linear_combination h)
    rcases hs with rfl | rfl <;> constructor <;> linarith [hy.1, hy.2]
  have hg : 0 < |x| * g1 * g2 := mul_pos (mul_pos hpos h1) h2
  have hup : ∀ v c : K, 0 < c → v * len = c → 0 < v := by
    intro v c hc e
    by_contra hv
    have := mul_nonpos_of_nonpos_of_nonneg (not_lt.1 hv) hl.le
    linarith
  refine ⟨⟨_, _, _, _, (b1 - s * g1, b2 + 1 / 2 * x * g2), (b1 - s * g1, b2 - 1 / 2 * x * g2), rfl, ⟨⟨?_, ?_⟩, ?_, ?_, ⟨?_, ?_⟩, ⟨?_, ?_⟩⟩, ⟨?_, ?_⟩, ⟨?_, ?_⟩, ?_, ?_, ?_⟩,
    ⟨_, _, _, _, rfl, ⟨⟨?_, ?_⟩, ?_, ?_, ⟨?_, ?_⟩, ⟨?_, ?_⟩⟩, ?_, ?_, ?_⟩⟩
  · unfold wdot; dsimp only; linear_combination (-n1 / 2) * e2 + (n2 / 2) * e1
  · unfold wdot; dsimp only; linear_combination (n1 / 2) * e2 - (n2 / 2) * e1
  · apply Prod.ext <;> dsimp only <;> ring
  · unfold wdot; dsimp only; linear_combination (y * g1 + len * n2) * e2 + (x * g2 + len * n1) * e1 + len ^ 2 * hu
  · rfl
  · rfl
  · change b1 - s * g1 = b1 + -(s * g1); ring
  · change b1 - s * g1 = b1 + -(s * g1); ring
  · unfold wdot; dsimp only
    linear_combination (-n1 / 2) * e2 + (n2 / 2) * e1 - (n1 * (b1 - s * g1 - (b1 - 1 / 2 * y * g1)) + n2 * (b2 + 1 / 2 * x * g2 - (b2 + 1 / 2 * x * g2))) * hu
  · refine ⟨2 * (n1 * (b1 - s * g1 - (b1 - 1 / 2 * y * g1)) + n2 * (b2 + 1 / 2 * x * g2 - (b2 + 1 / 2 * x * g2))), ?_, ?_⟩ <;> dsimp only <;> ring
  · unfold wdot; dsimp only
    linear_combination (n1 / 2) * e2 - (n2 / 2) * e1 - (n1 * (b1 - s * g1 - (b1 + 1 / 2 * y * g1)) + n2 * (b2 - 1 / 2 * x * g2 - (b2 - 1 / 2 * x * g2))) * hu
  · refine ⟨2 * (n1 * (b1 - s * g1 - (b1 + 1 / 2 * y * g1)) + n2 * (b2 - 1 / 2 * x * g2 - (b2 - 1 / 2 * x * g2))), ?_, ?_⟩ <;> dsimp only <;> ring
  · unfold wdot; dsimp only
    refine hup _ (|x| * g1 * g2 * (1 - s * y / 2)) (mul_pos hg (by linarith [hsy.2])) ?_
    have q1 : 1 / 2 * x * g2 = len / 2 * n1 := by linear_combination (1 / 2) * e1
    have q2 : 1 / 2 * y * g1 = len / 2 * n2 := by linear_combination (1 / 2) * e2
    have q3 : |x| * g1 * g2 * (1 - s * y / 2) = s * g1 * (x * g2) - (x * g2) * (y * g1) / 2 := by
      rw [← hs1]; linear_combination (-x * y * g1 * g2 / 2) * hs2
    rw [q3, e1, e2, q1, q2]
    linear_combination (-len * (-2 * s * g1 * n1 + len * n1 * n2)) * hu
  · unfold wdot; dsimp only
    refine hup _ (|x| * g1 * g2 * (1 + s * y / 2)) (mul_pos hg (by linarith [hsy.1])) ?_
    have q1 : 1 / 2 * x * g2 = len / 2 * n1 := by linear_combination (1 / 2) * e1
    have q2 : 1 / 2 * y * g1 = len / 2 * n2 := by linear_combination (1 / 2) * e2
    have q3 : |x| * g1 * g2 * (1 + s * y / 2) = s * g1 * (x * g2) + (x * g2) * (y * g1) / 2 := by
      rw [← hs1]; linear_combination (x * y * g1 * g2 / 2) * hs2
    rw [q3, e1, e2, q1, q2]
    linear_combination (-len * (-2 * s * g1 * n1 - len * n1 * n2)) * hu
  · rw [shoelace_four]
    dsimp only
    have q1 : 1 / 2 * x * g2 = len / 2 * n1 := by linear_combination (1 / 2) * e1
    have q2 : 1 / 2 * y * g1 = len / 2 * n2 := by linear_combination (1 / 2) * e2
    have q3 : 2 * (|x| * g1 * g2) = |-(2 * (|x| * g1 * g2))| := ((abs_neg _).trans (abs_of_pos (by linarith))).symm
    rw [q3]
    congr 1
    rw [q1, q2]
    linear_combination (-4 * len * s * g1 * n1) * hu + 2 * s * g1 * e1 - 2 * g1 * g2 * hs1
  · unfold wdot; dsimp only; linear_combination (-n1 / 2) * e2 + (n2 / 2) * e1
  · unfold wdot; dsimp only; linear_combination (n1 / 2) * e2 - (n2 / 2) * e1
  · apply Prod.ext <;> dsimp only <;> ring
  · unfold wdot; dsimp only; linear_combination (y * g1 + len * n2) * e2 + (x * g2 + len * n1) * e1 + len ^ 2 * hu
  · rfl
  · rfl
  · rfl
  · rfl
  · unfold wdot; dsimp only
    refine hup _ (|x| * g1 * g2 * (1 + s * y / 2)) (mul_pos hg (by linarith [hsy.1])) ?_
    have q3 : |x| * g1 * g2 * (1 + s * y / 2) = s * g1 * (x * g2) + (x * g2) * (y * g1) / 2 := by
      rw [← hs1]; linear_combination (x * y * g1 * g2 / 2) * hs2
    rw [q3]
    linear_combination (-s * g1) * e1 - (x * g2 / 2) * e2
  · unfold wdot; dsimp only
    refine hup _ (|x| * g1 * g2 * (1 - s * y / 2)) (mul_pos hg (by linarith [hsy.2])) ?_
    have q3 : |x| * g1 * g2 * (1 - s * y / 2) = s * g1 * (x * g2) - (x * g2) * (y * g1) / 2 := by
      rw [← hs1]; linear_combination (-x * y * g1 * g2 / 2) * hs2
    rw [q3]
    linear_combination (-s * g1) * e1 + (x * g2 / 2) * e2
  · rw [shoelace_four]
    dsimp only
    have q3 : 2 * (|x| * g1 * g2) = |-(2 * (|x| * g1 * g2))| := ((abs_neg _).trans (abs_of_pos (by linarith))).symm
    rw [q3]
    congr 1
    linear_combination -2 * g1 * g2 * hs1

/-- C158: at a wall that closes the open surface of its cell, the polygon behind the wall is the mirror image of the trapezoid that reaches one cell width behind the wall, the inner polygon is the trapezoid that reaches one cell width
in front of it, both are in front of the wall, and both have the area of the part of the cell face that is blocked times the width of the cell. -/
theorem hgrid_polygons (d : Bool) (h : K × K) (w : WallCell K) (len : K) (h1 : 0 < h.1) (h2 : 0 < h.2) (hc : ClosedBy h w len) (hx : |w.bxR - w.bxL| ≤ 1) (hy : |w.byR - w.byL| ≤ 1)
    (hd : alongDir d (w.bxR - w.bxL, w.byR - w.byL) ≠ 0) :
    (∃ A B C D C' D' : K × K, hgridBoundary d h w = [A, B, C, D] ∧ WallTrapezoid d w.xB w.xN len (-(SignType.sign (alongDir d (w.bxR - w.bxL, w.byR - w.byL)) * alongDir d h)) A B C' D' ∧
      IsMirrorImage w.xN w.xB C C' ∧ IsMirrorImage w.xN w.xB D D' ∧
      0 < wdot w.xN (C.1 - w.xB.1, C.2 - w.xB.2) ∧ 0 < wdot w.xN (D.1 - w.xB.1, D.2 - w.xB.2) ∧
      |shoelace [A, C, D, B]| = 2 * (|alongDir d (w.bxR - w.bxL, w.byR - w.byL)| * h.1 * h.2)) ∧
    (∃ A B C D : K × K, hgridInner d h w = [B, A, D, C] ∧ WallTrapezoid d w.xB w.xN len (SignType.sign (alongDir d (w.bxR - w.bxL, w.byR - w.byL)) * alongDir d h) A B C D ∧
      0 < wdot w.xN (C.1 - w.xB.1, C.2 - w.xB.2) ∧ 0 < wdot w.xN (D.1 - w.xB.1, D.2 - w.xB.2) ∧
      |shoelace [A, C, D, B]| = 2 * (|alongDir d (w.bxR - w.bxL, w.byR - w.byL)| * h.1 * h.2)) := by
  have hsg : ∀ z : K, ((SignType.sign z : SignType) : K) = signOf z := by
    intro z
    unfold signOf
    rcases lt_trichotomy z 0 with hz | hz | hz
    · rw [sign_neg hz, if_neg (not_lt.2 hz.le), if_pos hz]; simp
    · rw [hz, sign_zero]; simp
    · rw [sign_pos hz, if_pos hz, if_neg (not_lt.2 hz.le)]; simp
  rw [hsg]
  cases d with
  | true => exact hgrid_polygons_x h w len h1 h2 hc hy hd
  | false =>
    have hc' : ClosedBy (h.2, h.1) w.swap len := ⟨hc.pos, by rw [← hc.unit]; exact add_comm _ _, hc.second, hc.first⟩
    obtain ⟨⟨A, B, C, D, C', D', p1, p2, p3, p4, p5, p6, p7⟩, ⟨A₂, B₂, C₂, D₂, q1, q2, q3, q4, q5⟩⟩ := hgrid_polygons_x (h.2, h.1) w.swap len h2 h1 hc' hx hd
    have cw : ∀ a b : K × K, wdot (a.2, a.1) (b.2, b.1) = wdot a b := fun a b => add_comm _ _
    have ct : ∀ (s : K) (A B C D : K × K), WallTrapezoid true w.swap.xB w.swap.xN len s A B C D → WallTrapezoid false w.xB w.xN len s (A.2, A.1) (B.2, B.1) (C.2, C.1) (D.2, D.1) := by
      intro s A B C D ht
      refine ⟨⟨?_, ?_⟩, ?_, ?_, ht.level, ht.shift⟩
      · rw [← cw]; exact ht.wall.1
      · rw [← cw]; exact ht.wall.2
      · have := ht.middle
        exact Prod.ext (congrArg Prod.snd this) (congrArg Prod.fst this)
      · rw [← cw]; exact ht.length
    have cm : ∀ x y : K × K, IsMirrorImage w.swap.xN w.swap.xB x y → IsMirrorImage w.xN w.xB (x.2, x.1) (y.2, y.1) := by
      rintro x y ⟨m1, t, m2, m3⟩
      exact ⟨by rw [← cw]; exact m1, t, m3, m2⟩
    have cs : ∀ a b c e : K × K, shoelace [(a.2, a.1), (b.2, b.1), (c.2, c.1), (e.2, e.1)] = -shoelace [a, b, c, e] := by
      intro a b c e
      rw [shoelace_four, shoelace_four]
      dsimp only
      ring
    have e3 : ∀ z : K, 2 * (z * (h.2, h.1).1 * (h.2, h.1).2) = 2 * (z * h.1 * h.2) := fun z => by dsimp only; ring
    rw [e3] at p7 q5
    refine ⟨⟨(A.2, A.1), (B.2, B.1), (C.2, C.1), (D.2, D.1), (C'.2, C'.1), (D'.2, D'.1), ?_, ct _ _ _ _ _ p2, cm _ _ p3, cm _ _ p4, ?_, ?_, ?_⟩,
      ⟨(A₂.2, A₂.1), (B₂.2, B₂.1), (C₂.2, C₂.1), (D₂.2, D₂.1), ?_, ct _ _ _ _ _ q2, ?_, ?_, ?_⟩⟩
    · unfold hgridBoundary swapPoints
      rw [p1]
      rfl
    · rw [← cw]; exact p5
    · rw [← cw]; exact p6
    · rw [cs, abs_neg]; exact p7
    · unfold hgridInner swapPoints
      rw [q1]
      rfl
    · rw [← cw]; exact q3
    · rw [← cw]; exact q4
    · rw [cs, abs_neg]; exact q5

end

/-- A wall with the normal (3/5, 4/5) in the unit cell. -/
def wallSlanted : WallCell ℚ := ⟨1 / 4, 17 / 20, 1 / 5, 1, (0, 0), (3 / 5, 4 / 5)⟩

example : ClosedBy ((1 : ℚ), (1 : ℚ)) wallSlanted 1 ∧ |wallSlanted.bxR - wallSlanted.bxL| ≤ 1 ∧ |wallSlanted.byR - wallSlanted.byL| ≤ 1 ∧
    alongDir false (wallSlanted.bxR - wallSlanted.bxL, wallSlanted.byR - wallSlanted.byL) ≠ 0 ∧ hgridBoundary true ((1 : ℚ), (1 : ℚ)) wallSlanted = [(-2 / 5, 3 / 10), (2 / 5, -3 / 10), (-71 / 125, 219 / 250), (1 / 125, 261 / 250)] := by
  refine ⟨⟨?_, ?_, ?_, ?_⟩, ?_, ?_, ?_, ?_⟩ <;> decide +kernel

/-! ### The centroid of a polygon -/

section
variable {K : Type} [Field K]

/-- The sum of a function of the edges of an open chain of points. -/
def chainSum (g : K × K → K × K → K) : K × K → List (K × K) → K
  | _, [] => 0
  | a, b :: r => g a b + chainSum g b r

/-- The last point of a chain. -/
def chainLast : K × K → List (K × K) → K × K
  | a, [] => a
  | _, b :: r => chainLast b r

theorem zip_chain (g : K × K → K × K → K) (z : K × K) (r : List (K × K)) (a : K × K) :
    (((a :: r).zip (r ++ [z])).map fun e : (K × K) × (K × K) => g e.1 e.2).sum = chainSum g a r + g (chainLast a r) z := by
  induction r generalizing a with
  | nil => simp [chainSum, chainLast]
  | cons b r ih =>
    have := ih b
    simp only [List.cons_append, List.zip_cons_cons, List.map_cons, List.sum_cons] at this ⊢
    rw [this, chainSum, chainLast]
    ring

theorem edges_sum (g : K × K → K × K → K) (a : K × K) (r : List (K × K)) :
    (((a :: r).zip ((a :: r).rotate 1)).map fun e : (K × K) × (K × K) => g e.1 e.2).sum = chainSum g a r + g (chainLast a r) a := by
  have : (a :: r).rotate 1 = r ++ [a] := by rw [List.rotate_cons_succ, List.rotate_zero]
  rw [this, zip_chain]

/-- The area of a fan by the sum over the edges. -/
theorem fanLoop_eq [CharZero K] (ref : K × K) (r : List (K × K)) (p : K × K) (acc : K × K × K) :
    fanLoop ref p r acc =
      (acc.1 + ((fun a b : K × K => a.1 * b.2 - b.1 * a.2) ref p + chainSum (fun a b : K × K => a.1 * b.2 - b.1 * a.2) p r + (fun a b : K × K => a.1 * b.2 - b.1 * a.2) (chainLast p r) ref) / 2,
       acc.2.1 + ((fun a b : K × K => (a.1 + b.1) * (a.1 * b.2 - b.1 * a.2)) ref p + chainSum (fun a b : K × K => (a.1 + b.1) * (a.1 * b.2 - b.1 * a.2)) p r +
         (fun a b : K × K => (a.1 + b.1) * (a.1 * b.2 - b.1 * a.2)) (chainLast p r) ref) / 6,
       acc.2.2 + ((fun a b : K × K => (a.2 + b.2) * (a.1 * b.2 - b.1 * a.2)) ref p + chainSum (fun a b : K × K => (a.2 + b.2) * (a.1 * b.2 - b.1 * a.2)) p r +
         (fun a b : K × K => (a.2 + b.2) * (a.1 * b.2 - b.1 * a.2)) (chainLast p r) ref) / 6) := by
  induction r generalizing p acc with
  | nil =>
    rw [fanLoop]
    obtain ⟨a1, a2, a3⟩ := acc
    simp only [chainSum, chainLast]
    refine Prod.ext ?_ (Prod.ext ?_ ?_) <;> dsimp only <;> ring
  | cons q r ih =>
    rw [fanLoop, ih]
    simp only [chainSum, chainLast]
    unfold triArea triCenter
    refine Prod.ext ?_ (Prod.ext ?_ ?_) <;> dsimp only <;> field_simp <;> ring

/-- C158: the centroid of a polygon by its fan of triangles is the first moment over the area, each as a sum over the edges. -/
theorem fan_centroid_edges [CharZero K] (l : List (K × K)) (hl : 3 ≤ l.length) : fanCentroid l = some ((edgeMoment l).1 / (3 * shoelace l), (edgeMoment l).2 / (3 * shoelace l)) := by
  match l, hl with
  | ref :: p :: q :: r, _ =>
    unfold fanCentroid
    dsimp only
    rw [fanLoop_eq]
    have e0 := edges_sum (fun a b : K × K => a.1 * b.2 - b.1 * a.2) ref (p :: q :: r)
    have e1 := edges_sum (fun a b : K × K => (a.1 + b.1) * (a.1 * b.2 - b.1 * a.2)) ref (p :: q :: r)
    have e2 := edges_sum (fun a b : K × K => (a.2 + b.2) * (a.1 * b.2 - b.1 * a.2)) ref (p :: q :: r)
    unfold edgeMoment shoelace
    rw [e0, e1, e2]
    simp only [chainSum, chainLast]
    have hdiv : ∀ m s : K, (0 + m / 6) / (0 + s / 2) = m / (3 * s) := by
      intro m s
      rw [zero_add, zero_add]
      by_cases hs : s = 0
      · subst hs; simp
      · field_simp; ring
    rw [hdiv, hdiv]

theorem edges_rotate (g : (K × K) × (K × K) → K) (l : List (K × K)) (k : ℕ) :
    (((l.rotate k).zip ((l.rotate k).rotate 1)).map g).sum = ((l.zip (l.rotate 1)).map g).sum := by
  have e : (l.rotate k).zip ((l.rotate k).rotate 1) = (l.zip (l.rotate 1)).rotate k := by
    rw [List.rotate_rotate, Nat.add_comm, ← List.rotate_rotate]
    exact (List.zipWith_rotate_distrib _ _ _ _ (by simp)).symm
  rw [e]
  exact ((List.rotate_perm _ _).map g).sum_eq

/-- C158: the centroid does not depend on the vertex at which the list of vertices starts. -/
theorem fan_centroid_start [CharZero K] (l : List (K × K)) (k : ℕ) (hl : 3 ≤ l.length) : fanCentroid (l.rotate k) = fanCentroid l := by
  rw [fan_centroid_edges l hl, fan_centroid_edges (l.rotate k) (by simpa using hl)]
  unfold edgeMoment shoelace
  rw [edges_rotate, edges_rotate, edges_rotate]

end

example : fanCentroid [((0 : ℚ), (0 : ℚ)), (2, 0), (2, 1), (0, 3)] = some (5 / 6, 13 / 12) := by decide +kernel

theorem fanLoop_inside (S : Set (ℝ × ℝ)) (hS : Convex ℝ S) (ref : ℝ × ℝ) (href : ref ∈ S) (r : List (ℝ × ℝ)) (p : ℝ × ℝ) (hp : p ∈ S) (hr : ∀ x ∈ r, x ∈ S) (hconv : ∀ e ∈ (p :: r).zip r, 0 ≤ triArea ref e.1 e.2)
    (acc : ℝ × ℝ × ℝ) (c : ℝ × ℝ) (hc : c ∈ S) (h0 : 0 ≤ acc.1) (h1 : acc.2 = (acc.1 * c.1, acc.1 * c.2)) :
    ∃ c' ∈ S, (fanLoop ref p r acc).2 = ((fanLoop ref p r acc).1 * c'.1, (fanLoop ref p r acc).1 * c'.2) := by
  induction r generalizing p acc c with
  | nil => exact ⟨c, hc, h1⟩
  | cons q r ih =>
    rw [fanLoop]
    have hq : q ∈ S := hr q (by simp)
    have ht : 0 ≤ triArea ref p q := hconv (p, q) (by simp)
    have hz : triCenter ref p q ∈ S := by
      have m1 : (1 / 2 : ℝ) • ref + (1 / 2 : ℝ) • p ∈ S := hS href hp (by norm_num) (by norm_num) (by norm_num)
      have m2 : (2 / 3 : ℝ) • ((1 / 2 : ℝ) • ref + (1 / 2 : ℝ) • p) + (1 / 3 : ℝ) • q ∈ S := hS m1 hq (by norm_num) (by norm_num) (by norm_num)
      have e : triCenter ref p q = (2 / 3 : ℝ) • ((1 / 2 : ℝ) • ref + (1 / 2 : ℝ) • p) + (1 / 3 : ℝ) • q := by
        unfold triCenter
        apply Prod.ext
        · simp only [Prod.fst_add, Prod.smul_fst, smul_eq_mul]; ring
        · simp only [Prod.snd_add, Prod.smul_snd, smul_eq_mul]; ring
      rw [e]
      exact m2
    have hcv : ∀ e ∈ (q :: r).zip r, 0 ≤ triArea ref e.1 e.2 := fun e he => hconv e (by rw [List.zip_cons_cons]; exact List.mem_cons_of_mem _ he)
    obtain ⟨a1, a2, a3⟩ := acc
    simp only [Prod.mk.injEq] at h1
    obtain ⟨h1, h1'⟩ := h1
    dsimp only at h0 h1 h1' ⊢
    generalize triArea ref p q = t at *
    generalize triCenter ref p q = z at *
    by_cases hsum : a1 + t = 0
    · have ha : a1 = 0 := by linarith
      have ht0 : t = 0 := by linarith
      refine ih q hq (fun x hx => hr x (List.mem_cons_of_mem _ hx)) hcv _ c hc hsum.ge ?_
      rw [hsum, h1, h1', ha, ht0]
      simp
    · have hs : 0 < a1 + t := lt_of_le_of_ne (by linarith) (Ne.symm hsum)
      have hm : (a1 / (a1 + t)) • c + (t / (a1 + t)) • z ∈ S := hS hc hz (div_nonneg h0 hs.le) (div_nonneg ht hs.le) (by field_simp)
      refine ih q hq (fun x hx => hr x (List.mem_cons_of_mem _ hx)) hcv _ _ hm hs.le ?_
      apply Prod.ext
      · simp only [Prod.fst_add, Prod.smul_fst, smul_eq_mul, h1]; field_simp
      · simp only [Prod.snd_add, Prod.smul_snd, smul_eq_mul, h1']; field_simp

/-- C158: the centroid of a polygon that is seen counterclockwise from its first vertex lies in the convex hull of its vertices. -/
theorem fan_centroid_inside (ref p q : ℝ × ℝ) (r : List (ℝ × ℝ)) (hconv : ∀ e ∈ (p :: q :: r).zip (q :: r), 0 ≤ (e.1.1 - ref.1) * (e.2.2 - ref.2) - (e.2.1 - ref.1) * (e.1.2 - ref.2))
    (hpos : 0 < shoelace (ref :: p :: q :: r)) :
    ∃ c : ℝ × ℝ, fanCentroid (ref :: p :: q :: r) = some c ∧ c ∈ convexHull ℝ {x | x ∈ ref :: p :: q :: r} := by
  have hsub : ∀ x ∈ ref :: p :: q :: r, x ∈ convexHull ℝ {x | x ∈ ref :: p :: q :: r} := fun x hx => subset_convexHull ℝ {x | x ∈ ref :: p :: q :: r} hx
  have hcv : ∀ e ∈ (p :: q :: r).zip (q :: r), 0 ≤ triArea ref e.1 e.2 := fun e he => div_nonneg (hconv e he) (by norm_num)
  obtain ⟨c, hc, hc2⟩ := fanLoop_inside _ (convex_convexHull ℝ _) ref (hsub ref (by simp)) (q :: r) p (hsub p (by simp)) (fun x hx => hsub x (by simp only [List.mem_cons] at hx ⊢; tauto)) hcv
    (0, 0, 0) ref (hsub ref (by simp)) le_rfl (by simp)
  refine ⟨c, ?_, hc⟩
  unfold fanCentroid
  dsimp only
  have e0 := edges_sum (fun a b : ℝ × ℝ => a.1 * b.2 - b.1 * a.2) ref (p :: q :: r)
  have ha : (fanLoop ref p (q :: r) (0, 0, 0)).1 = shoelace (ref :: p :: q :: r) / 2 := by
    rw [fanLoop_eq]
    unfold shoelace
    rw [e0]
    simp only [chainSum, chainLast]
    ring
  have hne : (fanLoop ref p (q :: r) (0, 0, 0)).1 ≠ 0 := by rw [ha]; linarith
  generalize fanLoop ref p (q :: r) (0, 0, 0) = t at *
  rw [hc2]
  dsimp only
  rw [mul_div_cancel_left₀ _ hne, mul_div_cancel_left₀ _ hne]

example : ∃ c : ℝ × ℝ, fanCentroid [((0 : ℝ), (0 : ℝ)), (2, 0), (2, 1), (0, 3)] = some c ∧ c ∈ convexHull ℝ {x | x ∈ [((0 : ℝ), (0 : ℝ)), (2, 0), (2, 1), (0, 3)]} := by
  apply fan_centroid_inside
  · intro e he
    simp only [List.zip_cons_cons, List.zip_nil_right, List.mem_cons, List.not_mem_nil, or_false] at he
    rcases he with rfl | rfl <;> norm_num
  · norm_num [shoelace, List.rotate]

/-- C159 (negation): the mirror polygon of a cell may reach beyond the neighbours of the cell in which its integration points are looked for. -/
theorem hgrid_mirror_leaves : ∃ (w : WallCell ℚ) (len : ℚ), ClosedBy ((1 : ℚ), (1 : ℚ)) w len ∧ |w.bxR - w.bxL| ≤ 1 ∧ |w.byR - w.byL| ≤ 1 ∧ |w.xB.1 - 1 / 2| ≤ 1 / 2 ∧ |w.xB.2 - 1 / 2| ≤ 1 / 2 ∧
    ∃ x ∈ hgridBoundary true ((1 : ℚ), (1 : ℚ)) w, 2 < x.1 := by
  refine ⟨⟨0, 1, 0, 20 / 99, (1 - 10 / 99, 1 / 2), (99 / 101, 20 / 101)⟩, 101 / 99, ⟨?_, ?_, ?_, ?_⟩, ?_, ?_, ?_, ?_, ?_⟩
  all_goals decide +kernel

/-- C159: all corners of the mirror polygon are within the distance √(h² + h'²/4) of the centre of the wall, with the width `h` of the cell in the direction and `h'` across it. Missing: the polygon is a part of the cell and its neighbours
(`hgrid_mirror_leaves`). -/
theorem hgrid_mirror_distance_partial {K : Type} [Field K] [LinearOrder K] [IsStrictOrderedRing K] (d : Bool) (h : K × K) (w : WallCell K) (len : K) (h1 : 0 < h.1) (h2 : 0 < h.2) (hc : ClosedBy h w len)
    (hx : |w.bxR - w.bxL| ≤ 1) (hy : |w.byR - w.byL| ≤ 1) (hd : alongDir d (w.bxR - w.bxL, w.byR - w.byL) ≠ 0) (x : K × K) (hm : x ∈ hgridBoundary d h w) :
    wdot (x.1 - w.xB.1, x.2 - w.xB.2) (x.1 - w.xB.1, x.2 - w.xB.2) ≤ alongDir d h ^ 2 + alongDir (!d) h ^ 2 / 4 := by
  obtain ⟨⟨A, B, C, D, C', D', p1, p2, p3, p4, -, -, -⟩, -⟩ := hgrid_polygons d h w len h1 h2 hc hx hy hd
  have hle : len ^ 2 ≤ h.1 ^ 2 + h.2 ^ 2 := by
    have e : len ^ 2 = ((w.bxR - w.bxL) * h.2) ^ 2 + ((w.byR - w.byL) * h.1) ^ 2 := by
      rw [hc.first, hc.second]
      have := hc.unit
      unfold wdot at this
      linear_combination (-len ^ 2) * this
    have s1 : (w.bxR - w.bxL) ^ 2 ≤ 1 := (sq_le_one_iff_abs_le_one _).2 hx
    have s2 : (w.byR - w.byL) ^ 2 ≤ 1 := (sq_le_one_iff_abs_le_one _).2 hy
    rw [e, mul_pow, mul_pow]
    nlinarith [sq_nonneg h.1, sq_nonneg h.2]
  have hhd : alongDir d h ^ 2 + alongDir (!d) h ^ 2 = h.1 ^ 2 + h.2 ^ 2 := by cases d <;> simp [alongDir] ; ring
  have hwall : ∀ y : K × K, (y = A ∨ y = B) → wdot (y.1 - w.xB.1, y.2 - w.xB.2) (y.1 - w.xB.1, y.2 - w.xB.2) = len ^ 2 / 4 := by
    have hl := p2.length
    have hmid := p2.middle
    rintro y (rfl | rfl)
    · rw [hmid]; unfold wdot at hl ⊢; dsimp only at hl ⊢; linear_combination (1 / 4) * hl
    · rw [hmid]; unfold wdot at hl ⊢; dsimp only at hl ⊢; linear_combination (1 / 4) * hl
  have hmir : ∀ z z' : K × K, IsMirrorImage w.xN w.xB z z' → wdot (z.1 - w.xB.1, z.2 - w.xB.2) (z.1 - w.xB.1, z.2 - w.xB.2) = wdot (z'.1 - w.xB.1, z'.2 - w.xB.2) (z'.1 - w.xB.1, z'.2 - w.xB.2) := by
    rintro z z' ⟨m, t, t1, t2⟩
    unfold wdot at m ⊢
    dsimp only at m ⊢
    linear_combination (-2 * t) * m - (z.1 + z'.1 - 2 * w.xB.1) * t1 - (z.2 + z'.2 - 2 * w.xB.2) * t2
  have hsq : ((SignType.sign (alongDir d (w.bxR - w.bxL, w.byR - w.byL)) : SignType) : K) ^ 2 ≤ 1 := by
    rcases lt_or_gt_of_ne hd with hz | hz
    · rw [sign_neg hz]; simp
    · rw [sign_pos hz]; simp
  -- the distance across is half of the projection of the wall
  have hac : ∀ (y z : K × K), (y = A ∨ y = B) → alongDir (!d) z = alongDir (!d) y → (alongDir (!d) z - alongDir (!d) w.xB) ^ 2 ≤ alongDir (!d) h ^ 2 / 4 := by
    intro y z hy' e
    have k1 := hwall y hy'
    have k0 : wdot w.xN (y.1 - w.xB.1, y.2 - w.xB.2) = 0 := by
      rcases hy' with rfl | rfl
      · exact p2.wall.1
      · exact p2.wall.2
    have hu := hc.unit
    have f1 := hc.first
    have f2 := hc.second
    have s1 : (w.bxR - w.bxL) ^ 2 ≤ 1 := (sq_le_one_iff_abs_le_one _).2 hx
    have s2 : (w.byR - w.byL) ^ 2 ≤ 1 := (sq_le_one_iff_abs_le_one _).2 hy
    rw [e]
    unfold wdot at k0 k1 hu
    dsimp only at k0 k1
    generalize w.bxR - w.bxL = a at *
    generalize w.byR - w.byL = b at *
    cases d with
    | true =>
      change (y.2 - w.xB.2) ^ 2 ≤ h.2 ^ 2 / 4
      have e2 : (y.2 - w.xB.2) ^ 2 = (a * h.2) ^ 2 / 4 := by
        rw [f1]
        linear_combination (w.xN.2 * (y.2 - w.xB.2) - w.xN.1 * (y.1 - w.xB.1)) * k0 - (y.2 - w.xB.2) ^ 2 * hu + w.xN.1 ^ 2 * k1
      rw [e2, mul_pow]
      nlinarith [mul_nonneg (sub_nonneg.2 s1) (sq_nonneg h.2)]
    | false =>
      change (y.1 - w.xB.1) ^ 2 ≤ h.1 ^ 2 / 4
      have e2 : (y.1 - w.xB.1) ^ 2 = (b * h.1) ^ 2 / 4 := by
        rw [f2]
        linear_combination (w.xN.1 * (y.1 - w.xB.1) - w.xN.2 * (y.2 - w.xB.2)) * k0 - (y.1 - w.xB.1) ^ 2 * hu + w.xN.2 ^ 2 * k1
      rw [e2, mul_pow]
      nlinarith [mul_nonneg (sub_nonneg.2 s2) (sq_nonneg h.1)]
  have hfar : ∀ (y z : K × K), (y = A ∨ y = B) → alongDir (!d) z = alongDir (!d) y → alongDir d z = alongDir d w.xB + -(((SignType.sign (alongDir d (w.bxR - w.bxL, w.byR - w.byL)) : SignType) : K) * alongDir d h) →
      wdot (z.1 - w.xB.1, z.2 - w.xB.2) (z.1 - w.xB.1, z.2 - w.xB.2) ≤ alongDir d h ^ 2 + alongDir (!d) h ^ 2 / 4 := by
    intro y z hy e1 e2
    have k1 := hac y z hy e1
    have k2 : wdot (z.1 - w.xB.1, z.2 - w.xB.2) (z.1 - w.xB.1, z.2 - w.xB.2) = (alongDir d z - alongDir d w.xB) ^ 2 + (alongDir (!d) z - alongDir (!d) w.xB) ^ 2 := by
      cases d <;> simp [alongDir, wdot] <;> ring
    have k3 : (alongDir d z - alongDir d w.xB) ^ 2 ≤ alongDir d h ^ 2 := by
      rw [e2]
      generalize ((SignType.sign (alongDir d (w.bxR - w.bxL, w.byR - w.byL)) : SignType) : K) = s at *
      nlinarith [sq_nonneg (alongDir d h), mul_nonneg (sub_nonneg.2 hsq) (sq_nonneg (alongDir d h))]
    rw [k2]
    linarith
  rw [p1] at hm
  simp only [List.mem_cons, List.not_mem_nil, or_false] at hm
  rcases hm with rfl | rfl | rfl | rfl
  · rw [hwall _ (Or.inl rfl)]; nlinarith [sq_nonneg (alongDir d h)]
  · rw [hwall _ (Or.inr rfl)]; nlinarith [sq_nonneg (alongDir d h)]
  · rw [hmir _ _ p3]; exact hfar A C' (Or.inl rfl) p2.level.1 p2.shift.1
  · rw [hmir _ _ p4]; exact hfar B D' (Or.inr rfl) p2.level.2 p2.shift.2

/-! ### Storage -/

/-- C158: the integration points that are stored in the array of a cell are read back, and no other entry changes. -/
theorem stored_points {K : Type} [Zero K] (n : ℕ) (pts : ℕ → StoredPoint K) (old : ℕ → RawEntry K) :
    (∀ i : ℕ, i < n → loadPoint (storePoints n pts old) i = pts i) ∧ ∀ c : ℕ, 5 * n ≤ c → storePoints n pts old c = old c := by
  constructor
  · intro i hi
    have key : ∀ j : ℕ, j < 5 → storePoints n pts old (i * 5 + j) = pointEntry (pts i) j := by
      intro j hj
      have e1 : (i * 5 + j) / 5 = i := by omega
      have e2 : (i * 5 + j) % 5 = j := by omega
      unfold storePoints
      rw [e1, e2, if_pos hi]
    unfold loadPoint
    rw [key 0 (by norm_num), key 1 (by norm_num), key 2 (by norm_num), key 3 (by norm_num), key 4 (by norm_num)]
    rfl
  · intro c hc
    unfold storePoints
    rw [if_neg (by omega)]

example : loadPoint (storePoints 2 (fun i => ⟨(i : ℚ), (2, 3), ((i : ℤ), -7)⟩) fun _ => .num 0) 1 = ⟨1, (2, 3), (1, -7)⟩ := (stored_points 2 _ _).1 1 (by norm_num)

end Fub
