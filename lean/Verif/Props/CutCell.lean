import Verif.Model.CutCell
import Verif.Spec.CutCell
import Mathlib.Tactic.Linarith
import Mathlib.Tactic.NormNum
import Mathlib.Tactic.Ring
import Mathlib.Tactic.FieldSimp
import Mathlib.Tactic.Positivity
import Mathlib.Algebra.Field.Rat
import Mathlib.Algebra.Order.Ring.Rat
import Mathlib.Algebra.BigOperators.Intervals

/-!
# C67–C69: cut cells along one direction
-/

namespace Fub
open Finset
variable {K : Type} [Field K] [LinearOrder K] [DecidableEq K] [IsStrictOrderedRing K]

/-! ### C67: parts of the faces -/

/-- **C67 (parts).** For all open fractions: the four parts of a face are not negative and add up to the open fraction; the part not shielded by the right
cell is the smaller one of the face and its right neighbour, likewise for the left, and the part that is not shielded at all is the smallest of the three
faces. There is a doubly shielded part exactly if both neighbours are smaller. -/
theorem face_parts (bL bM bR : K) (hL : 0 ≤ bL) (hM : 0 ≤ bM) (hR : 0 ≤ bR) :
    let p := fillCutCellLane bL bM bR
    (0 ≤ p.us ∧ 0 ≤ p.sL ∧ 0 ≤ p.sR ∧ 0 ≤ p.ds) ∧ p.us + p.sL + p.sR + p.ds = bM ∧ p.us = min bM (min bL bR) ∧
    p.us + p.sL = min bM bR ∧ p.us + p.sR = min bM bL ∧ (0 < p.ds ↔ bL < bM ∧ bR < bM) := by
  intro p
  simp only [p, fillCutCellLane]
  rcases le_total bM bL with h1 | h1 <;> rcases le_total bM bR with h2 | h2
  · rw [max_eq_left (by linarith : bM - bL ≤ 0), max_eq_left (by linarith : bM - bR ≤ 0)]
    simp only [max_self, min_self, sub_zero, min_eq_left h1, min_eq_left h2, max_eq_right hM]
    refine ⟨⟨hM, le_rfl, le_rfl, le_rfl⟩, by ring, (min_eq_left (le_min h1 h2)).symm, by ring, by ring, ?_⟩
    exact ⟨fun h => absurd h (lt_irrefl _), fun h => absurd h.1 (not_lt.2 h1)⟩
  · rw [max_eq_left (by linarith : bM - bL ≤ 0), max_eq_right (by linarith : 0 ≤ bM - bR), max_eq_right (by linarith : 0 ≤ bM - bR),
      min_eq_left (by linarith : 0 ≤ bM - bR), max_eq_right (by linarith : 0 ≤ bM - (bM - bR)), min_eq_left h1, min_eq_right h2,
      min_eq_right (h2.trans h1), min_eq_right h2]
    refine ⟨⟨by linarith, by linarith, by linarith, le_rfl⟩, by ring, by ring, by ring, by ring, ?_⟩
    exact ⟨fun h => absurd h (lt_irrefl _), fun h => absurd h.1 (not_lt.2 h1)⟩
  · rw [max_eq_right (by linarith : 0 ≤ bM - bL), max_eq_left (by linarith : bM - bR ≤ 0), max_eq_left (by linarith : 0 ≤ bM - bL),
      min_eq_right (by linarith : 0 ≤ bM - bL), max_eq_right (by linarith : 0 ≤ bM - (bM - bL)), min_eq_right h1, min_eq_left h2,
      min_eq_left (h1.trans h2), min_eq_right h1]
    refine ⟨⟨by linarith, by linarith, by linarith, le_rfl⟩, by ring, by ring, by ring, by ring, ?_⟩
    exact ⟨fun h => absurd h (lt_irrefl _), fun h => absurd h.2 (not_lt.2 h2)⟩
  · rw [max_eq_right (by linarith : 0 ≤ bM - bL), max_eq_right (by linarith : 0 ≤ bM - bR), min_eq_right h1, min_eq_right h2]
    rcases le_total bL bR with h3 | h3
    · rw [max_eq_left (by linarith : bM - bR ≤ bM - bL), min_eq_right (by linarith : bM - bR ≤ bM - bL), min_eq_left h3,
        max_eq_right (by linarith : 0 ≤ bM - (bM - bL)), min_eq_right h1]
      refine ⟨⟨by linarith, by linarith, by linarith, by linarith⟩, by ring, by ring, by ring, by ring, ?_⟩
      exact ⟨fun h => ⟨by linarith, by linarith⟩, fun h => by linarith [h.2]⟩
    · rw [max_eq_right (by linarith : bM - bL ≤ bM - bR), min_eq_left (by linarith : bM - bL ≤ bM - bR), min_eq_right h3,
        max_eq_right (by linarith : 0 ≤ bM - (bM - bR)), min_eq_right h2]
      refine ⟨⟨by linarith, by linarith, by linarith, by linarith⟩, by ring, by ring, by ring, by ring, ?_⟩
      exact ⟨fun h => ⟨by linarith, by linarith⟩, fun h => by linarith [h.1]⟩

/-- **C67 (relative parts).** Relative parts times the open fraction are the parts, hence add up to one on an open face; on a closed face they are zero
and nothing is divided by zero. -/
theorem face_parts_rel (bL bM bR : K) (hL : 0 ≤ bL) (hM : 0 ≤ bM) (hR : 0 ≤ bR) :
    let p := fillCutCellLane bL bM bR
    p.usRel * bM = p.us ∧ p.sLRel * bM = p.sL ∧ p.sRRel * bM = p.sR ∧ p.dsRel * bM = p.ds ∧
    (0 < bM → p.usRel + p.sLRel + p.sRRel + p.dsRel = 1) ∧ (bM = 0 → p.usRel = 0 ∧ p.sLRel = 0 ∧ p.sRRel = 0 ∧ p.dsRel = 0) ∧
    0 ≤ p.usRel ∧ 0 ≤ p.sLRel ∧ 0 ≤ p.sRRel ∧ 0 ≤ p.dsRel := by
  intro p
  obtain ⟨⟨h1, h2, h3, h4⟩, hs, -⟩ := face_parts bL bM bR hL hM hR
  have e : p.usRel = p.us / (if bM ≤ 0 then 1 else bM) ∧ p.sLRel = p.sL / (if bM ≤ 0 then 1 else bM) ∧
      p.sRRel = p.sR / (if bM ≤ 0 then 1 else bM) ∧ p.dsRel = p.ds / (if bM ≤ 0 then 1 else bM) := ⟨rfl, rfl, rfl, rfl⟩
  change 0 ≤ p.us at h1; change 0 ≤ p.sL at h2; change 0 ≤ p.sR at h3; change 0 ≤ p.ds at h4
  change p.us + p.sL + p.sR + p.ds = bM at hs
  clear_value p
  rcases hM.lt_or_eq with hb | hb
  · rw [if_neg (not_le.2 hb)] at e
    obtain ⟨e1, e2, e3, e4⟩ := e
    rw [e1, e2, e3, e4]
    refine ⟨div_mul_cancel₀ _ hb.ne', div_mul_cancel₀ _ hb.ne', div_mul_cancel₀ _ hb.ne', div_mul_cancel₀ _ hb.ne', fun _ => ?_, fun h => absurd h hb.ne', ?_, ?_, ?_, ?_⟩
    · rw [← add_div, ← add_div, ← add_div, hs, div_self hb.ne']
    all_goals positivity
  · subst hb
    rw [if_pos le_rfl] at e
    simp only [div_one] at e
    obtain ⟨e1, e2, e3, e4⟩ := e
    have z1 : p.us = 0 := by linarith
    have z2 : p.sL = 0 := by linarith
    have z3 : p.sR = 0 := by linarith
    have z4 : p.ds = 0 := by linarith
    rw [e1, e2, e3, e4, z1, z2, z3, z4]
    simp

/-- **C67 (loops).** The scalar loop computes the same parts as the SIMD loop. -/
theorem face_parts_simd (bL bM bR : K) : fillCutCellScalar bL bM bR = if 0 ≤ bM then some (fillCutCellLane bL bM bR) else none := by
  unfold fillCutCellScalar fillCutCellLane
  by_cases h : 0 ≤ bM
  · rw [if_pos h, if_pos h]
    by_cases h0 : 0 < bM
    · rw [if_pos h0, if_neg (not_le.2 h0)]
    · rw [if_neg h0, if_pos (not_lt.1 h0)]
  · rw [if_neg h, if_neg h]

/-- A face with fraction one between faces with fractions 1/4 and 1/2: 1/4 is not shielded, 1/4 shielded from the left only, 1/2 by both. -/
example : let p := fillCutCellLane (1/4 : ℚ) 1 (1/2)
    p.us = 1/4 ∧ p.sL = 1/4 ∧ p.sR = 0 ∧ p.ds = 1/2 := by decide +kernel

/-! ### C68: conservation -/

theorem clamp01_id {x : K} (h0 : 0 ≤ x) (h1 : x ≤ 1) : clamp01 x = x := by
  unfold clamp01; rw [if_neg (not_lt.2 h0), if_neg (not_lt.2 h1)]

theorem clamp01_mem (x : K) : 0 ≤ clamp01 x ∧ clamp01 x ≤ 1 := by
  unfold clamp01
  split_ifs with h1 h2
  · exact ⟨le_rfl, zero_le_one⟩
  · exact ⟨zero_le_one, le_rfl⟩
  · exact ⟨not_lt.1 h1, not_lt.1 h2⟩

/-- The stabilised flux times the open fraction is the sum over the parts. -/
theorem kbnLine_area (beta center fB f : Int → K) (hb : ∀ k, 0 ≤ beta k) (k : Int) :
    beta k * (kbnLine beta center fB f k).stable =
      (faceParts beta k).us * f k + (faceParts beta k).sL * (kbnLine beta center fB f k).shieldedL +
        (faceParts beta k).sR * (kbnLine beta center fB f k).shieldedR := by
  obtain ⟨e1, e2, e3, -⟩ := face_parts_rel (beta (k - 1)) (beta k) (beta (k + 1)) (hb _) (hb _) (hb _)
  change (faceParts beta k).usRel * beta k = (faceParts beta k).us at e1
  change (faceParts beta k).sLRel * beta k = (faceParts beta k).sL at e2
  change (faceParts beta k).sRRel * beta k = (faceParts beta k).sR at e3
  rw [← e1, ← e2, ← e3]
  simp only [kbnLine, kbnStableFlux]; ring

/-- The doubly shielded part of a face. -/
theorem face_ds (bL bM bR : K) (hL : 0 ≤ bL) (hM : 0 ≤ bM) (hR : 0 ≤ bR) : (fillCutCellLane bL bM bR).ds = bM - min bM (max bL bR) := by
  obtain ⟨-, hs, hus, e1, e2, -⟩ := face_parts bL bM bR hL hM hR
  have : (fillCutCellLane bL bM bR).ds = bM - min bM bR - min bM bL + min bM (min bL bR) := by linarith
  rw [this]
  rcases le_total bL bR with h | h
  · rw [min_eq_left h, max_eq_right h]; ring
  · rw [min_eq_right h, max_eq_left h]; ring

/-- **C68 (wall area).** Unless the larger face of a cell is larger than both of its neighbours, the area of the wall is the difference of the two faces. -/
theorem wallArea_eq (beta : Int → K) (i : Int) (h0 : ¬IsDoublyShielded beta i) (h1 : ¬IsDoublyShielded beta (i + 1)) :
    wallArea beta i = beta i - beta (i + 1) := by
  have hi1 : i + 1 - 1 = i := by ring
  simp only [IsDoublyShielded, not_and, not_lt, hi1] at h0 h1
  unfold wallArea
  split_ifs with h2 h3
  · rw [min_eq_left]
    rcases lt_or_ge (beta (i - 1)) (beta i) with h | h
    · exact absurd h2 (not_lt.2 (h0 h))
    · exact h.trans (le_max_left _ _)
  · rw [min_eq_left ((h1 h3).trans (le_max_right _ _))]
  · linarith [le_antisymm (not_lt.1 h2) (not_lt.1 h3)]

/-- **C68 (one cell).** In a planar cell the content changes by what flows through its two faces, with the stabilised fluxes and open fractions, and through
the wall, with the boundary flux. In particular the clamps of the code do not act. -/
theorem cut_cell_balance (lam : K) (u alpha center fB beta f : Int → K) (hg : ∀ i, IsPlanarCell (beta i) (beta (i + 1)) (alpha i) (center i)) (i : Int) :
    alpha i * (cutLineStep lam u alpha center fB beta f i - u i) =
      lam * (beta i * (kbnLine beta center fB f i).stable - beta (i + 1) * (kbnLine beta center fB f (i + 1)).stable - wallArea beta i * fB i) := by
  have hb : ∀ k, 0 ≤ beta k := fun k => (hg k).left_nonneg
  have A := kbnLine_area beta center fB f hb i
  have A' := kbnLine_area beta center fB f hb (i + 1)
  obtain ⟨⟨us0, sL0, sR0, ds0⟩, hs, -, e1, e2, hds⟩ := face_parts (beta (i - 1)) (beta i) (beta (i + 1)) (hb _) (hb _) (hb _)
  have hi1 : i + 1 - 1 = i := by ring
  obtain ⟨⟨us0', sL0', sR0', ds0'⟩, hs', -, e1', e2', hds'⟩ := face_parts (beta (i + 1 - 1)) (beta (i + 1)) (beta (i + 1 + 1)) (hb _) (hb _) (hb _)
  simp only [hi1] at us0' sL0' sR0' ds0' hs' e1' e2' hds'
  have g := hg i
  rcases lt_trichotomy (beta i) (beta (i + 1)) with h | h | h
  · -- right face larger
    have hne : beta i ≠ beta (i + 1) := h.ne
    have ha := g.volume_pos hne
    obtain ⟨c1, c2⟩ := g.inside hne
    have hv : alpha i = beta i + (beta (i + 1) - beta i) * (1 / 2 - center i) := (g.volume_ge h.le).resolve_right fun h' => hne h'.1
    rw [min_eq_right h.le] at e2'
    have hP : fillCutCellLane (beta i) (beta (i + 1)) (beta (i + 1 + 1)) = faceParts beta (i + 1) := by simp only [faceParts, hi1]
    rw [hP] at us0' sL0' sR0' ds0' hs' e2'
    have hd : 0 ≤ 1 / 2 - center i := by linarith
    have hsLle : (faceParts beta (i + 1)).sL * (1 / 2 - center i) ≤ alpha i := by
      have : (faceParts beta (i + 1)).sL ≤ beta (i + 1) - beta i := by linarith
      have := mul_le_mul_of_nonneg_right this hd
      linarith [g.left_nonneg]
    have hcl : clamp01 ((faceParts beta (i + 1)).sL * (1 / 2 - center i) / alpha i) = (faceParts beta (i + 1)).sL * (1 / 2 - center i) / alpha i :=
      clamp01_id (by positivity) ((div_le_one ha).2 hsLle)
    have hL : (kbnLine beta center fB f (i + 1)).shieldedL = (1 / 2 - center i) * f (i + 1) + (1 - (1 / 2 - center i)) * fB i := by
      simp only [kbnLine, kbnStableFlux, hi1, clamp01_id hd (by linarith : 1 / 2 - center i ≤ 1)]
    have hr : (kbnLine beta center fB f (i + 1)).regular = f (i + 1) := rfl
    have hstep : cutLineStep lam u alpha center fB beta f i = cutRightGreater lam (u i) (alpha i) (center i) (fB i) (cutFace beta (i + 1))
        (kbnLine beta center fB f i) (kbnLine beta center fB f (i + 1)) := by
      unfold cutLineStep cutUpdateScalar
      rw [if_neg ha.ne', if_neg (by exact hne), if_neg (by exact not_lt.2 h.le)]
    have hw : wallArea beta i = -(beta (i + 1) - beta i - (faceParts beta (i + 1)).ds) := by
      rw [← hP, face_ds _ _ _ (hb _) (hb _) (hb _)]
      unfold wallArea; rw [if_neg (not_lt.2 h.le), if_pos h]; ring
    rw [hstep, hw, A']
    simp only [cutRightGreater, cutFace, hcl, hr, hL]
    have hbi : beta i = (faceParts beta (i + 1)).us + (faceParts beta (i + 1)).sR := e2'.symm
    have hbi1 : beta (i + 1) = (faceParts beta (i + 1)).us + (faceParts beta (i + 1)).sL + (faceParts beta (i + 1)).sR + (faceParts beta (i + 1)).ds := hs'.symm
    rw [hbi1, hbi]
    generalize (kbnLine beta center fB f i).stable = F
    generalize (kbnLine beta center fB f (i + 1)).shieldedR = G
    generalize (faceParts beta (i + 1)).us = p1
    generalize (faceParts beta (i + 1)).sL = p2
    generalize (faceParts beta (i + 1)).sR = p3
    generalize (faceParts beta (i + 1)).ds = p4
    generalize alpha i = al at ha ⊢
    field_simp
    ring
  · have hst : alpha i * (cutLineStep lam u alpha center fB beta f i - u i) =
        alpha i * (lam * ((kbnLine beta center fB f i).stable - (kbnLine beta center fB f (i + 1)).stable)) := by
      by_cases ha : alpha i = 0
      · rw [ha]; ring
      · unfold cutLineStep cutUpdateScalar
        rw [if_neg ha, if_pos (by exact h)]; ring
    have hal : alpha i = beta i := by
      rcases g.volume_le h.ge with h' | h'
      · rw [h', ← h]; ring
      · exact h'.2
    have hw : wallArea beta i = 0 := by unfold wallArea; rw [if_neg (not_lt.2 h.le), if_neg (not_lt.2 h.ge)]
    rw [hst, hw, hal, ← h]; ring
  · have hne : beta i ≠ beta (i + 1) := h.ne'
    have ha := g.volume_pos hne
    obtain ⟨c1, c2⟩ := g.inside hne
    have hv : alpha i = beta (i + 1) + (beta i - beta (i + 1)) * (center i + 1 / 2) := (g.volume_le h.le).resolve_right fun h' => hne h'.1
    rw [min_eq_right h.le] at e1
    change 0 ≤ (faceParts beta i).us at us0; change 0 ≤ (faceParts beta i).sL at sL0; change 0 ≤ (faceParts beta i).sR at sR0; change 0 ≤ (faceParts beta i).ds at ds0
    change (faceParts beta i).us + (faceParts beta i).sL + (faceParts beta i).sR + (faceParts beta i).ds = beta i at hs
    change (faceParts beta i).us + (faceParts beta i).sL = beta (i + 1) at e1
    have hd : 0 ≤ 1 / 2 + center i := by linarith
    have hsRle : (faceParts beta i).sR * (1 / 2 + center i) ≤ alpha i := by
      have : (faceParts beta i).sR ≤ beta i - beta (i + 1) := by linarith
      have := mul_le_mul_of_nonneg_right this hd
      linarith [g.right_nonneg]
    have hcl : clamp01 ((faceParts beta i).sR * (1 / 2 + center i) / alpha i) = (faceParts beta i).sR * (1 / 2 + center i) / alpha i :=
      clamp01_id (by positivity) ((div_le_one ha).2 hsRle)
    have hR : (kbnLine beta center fB f i).shieldedR = (1 / 2 + center i) * f i + (1 - (1 / 2 + center i)) * fB i := by
      simp only [kbnLine, kbnStableFlux, clamp01_id hd (by linarith : 1 / 2 + center i ≤ 1)]
    have hr : (kbnLine beta center fB f i).regular = f i := rfl
    have hstep : cutLineStep lam u alpha center fB beta f i = cutLeftGreater lam (u i) (alpha i) (center i) (fB i) (cutFace beta i)
        (kbnLine beta center fB f i) (kbnLine beta center fB f (i + 1)) := by
      unfold cutLineStep cutUpdateScalar
      rw [if_neg ha.ne', if_neg (by exact hne), if_pos (by exact h)]
    have hw : wallArea beta i = beta i - beta (i + 1) - (faceParts beta i).ds := by
      rw [faceParts, face_ds _ _ _ (hb _) (hb _) (hb _)]
      unfold wallArea; rw [if_pos h]; ring
    rw [hstep, hw, A]
    simp only [cutLeftGreater, cutFace, hcl, hr, hR]
    rw [← e1, ← hs]
    generalize (kbnLine beta center fB f (i + 1)).stable = F
    generalize (kbnLine beta center fB f i).shieldedL = G
    generalize (faceParts beta i).us = p1
    generalize (faceParts beta i).sL = p2
    generalize (faceParts beta i).sR = p3
    generalize (faceParts beta i).ds = p4
    generalize alpha i = al at ha ⊢
    field_simp
    ring

/-- **C68 (line).** For any number of cells: the content of a line of planar cells changes exactly by the fluxes through its two ends and by what the walls
exchange; between the cells nothing is lost, whatever the regular fluxes, boundary fluxes and cut cells. -/
theorem cut_line_conservative (lam : K) (u alpha center fB beta f : Int → K) (hg : ∀ i, IsPlanarCell (beta i) (beta (i + 1)) (alpha i) (center i)) (n : ℕ) :
    ∑ i ∈ range n, alpha i * cutLineStep lam u alpha center fB beta f i =
      ∑ i ∈ range n, alpha i * u i + lam * (beta 0 * (kbnLine beta center fB f 0).stable - beta n * (kbnLine beta center fB f n).stable) -
        lam * ∑ i ∈ range n, wallArea beta i * fB i := by
  induction n with
  | zero => simp
  | succ n ih =>
    rw [sum_range_succ, ih, sum_range_succ, sum_range_succ]
    have := cut_cell_balance lam u alpha center fB beta f hg n
    push_cast
    linear_combination this

/-- **C68 (closed line).** If moreover the end faces are closed and the boundary fluxes vanish, the content of the line is conserved exactly. -/
theorem cut_line_closed (lam : K) (u alpha center fB beta f : Int → K) (hg : ∀ i, IsPlanarCell (beta i) (beta (i + 1)) (alpha i) (center i)) (n : ℕ)
    (h0 : beta 0 = 0) (hn : beta n = 0) (hw : ∀ i : ℕ, i < n → fB i = 0) :
    ∑ i ∈ range n, alpha i * cutLineStep lam u alpha center fB beta f i = ∑ i ∈ range n, alpha i * u i := by
  rw [cut_line_conservative lam u alpha center fB beta f hg n, h0, hn]
  have : ∑ i ∈ range n, wallArea beta i * fB i = 0 := sum_eq_zero fun i hi => by rw [hw i (mem_range.1 hi), mul_zero]
  rw [this]; ring

/-! ### C69: stability of small cells -/

/-- The stabilised flux of a face that is open and not doubly shielded lies between bounds of the regular flux and the two boundary fluxes. -/
theorem kbn_flux_between (beta center fB f : Int → K) (hb : ∀ k, 0 ≤ beta k) (k : Int) (h0 : 0 < beta k) (hd : ¬IsDoublyShielded beta k) (lo hi : K)
    (hf : lo ≤ f k ∧ f k ≤ hi) (hl : lo ≤ fB (k - 1) ∧ fB (k - 1) ≤ hi) (hr : lo ≤ fB k ∧ fB k ≤ hi) :
    lo ≤ (kbnLine beta center fB f k).stable ∧ (kbnLine beta center fB f k).stable ≤ hi := by
  obtain ⟨-, -, -, hdm, hsum, -, r1, r2, r3, r4⟩ := face_parts_rel (beta (k - 1)) (beta k) (beta (k + 1)) (hb _) (hb _) (hb _)
  obtain ⟨⟨-, -, -, ds0⟩, -, -, -, -, hds⟩ := face_parts (beta (k - 1)) (beta k) (beta (k + 1)) (hb _) (hb _) (hb _)
  have hz : (fillCutCellLane (beta (k - 1)) (beta k) (beta (k + 1))).ds = 0 := le_antisymm (not_lt.1 fun h => hd (hds.1 h)) ds0
  have hs := hsum h0
  rw [hz] at hdm
  have hz' : (fillCutCellLane (beta (k - 1)) (beta k) (beta (k + 1))).dsRel = 0 := (mul_eq_zero.1 hdm).resolve_right h0.ne'
  rw [hz', add_zero] at hs
  have key : ∀ d x y : K, 0 ≤ d ∧ d ≤ 1 → (lo ≤ x ∧ x ≤ hi) → (lo ≤ y ∧ y ≤ hi) → lo ≤ d * x + (1 - d) * y ∧ d * x + (1 - d) * y ≤ hi := by
    intro d x y hd hx hy
    have a1 := mul_le_mul_of_nonneg_left hx.1 hd.1
    have a2 := mul_le_mul_of_nonneg_left hx.2 hd.1
    have a3 := mul_le_mul_of_nonneg_left hy.1 (sub_nonneg.2 hd.2)
    have a4 := mul_le_mul_of_nonneg_left hy.2 (sub_nonneg.2 hd.2)
    constructor <;> linarith
  obtain ⟨l1, l2⟩ := key _ _ _ (clamp01_mem (1 / 2 - center (k - 1))) hf hl
  obtain ⟨m1, m2⟩ := key _ _ _ (clamp01_mem (1 / 2 + center k)) hf hr
  simp only [kbnLine, kbnStableFlux, faceParts]
  generalize clamp01 (1 / 2 - center (k - 1)) * f k + (1 - clamp01 (1 / 2 - center (k - 1))) * fB (k - 1) = gl at *
  generalize clamp01 (1 / 2 + center k) * f k + (1 - clamp01 (1 / 2 + center k)) * fB k = gr at *
  generalize (fillCutCellLane (beta (k - 1)) (beta k) (beta (k + 1))).usRel = w1 at *
  generalize (fillCutCellLane (beta (k - 1)) (beta k) (beta (k + 1))).sLRel = w2 at *
  generalize (fillCutCellLane (beta (k - 1)) (beta k) (beta (k + 1))).sRRel = w3 at *
  have b1 := mul_le_mul_of_nonneg_left hf.1 r1
  have b2 := mul_le_mul_of_nonneg_left hf.2 r1
  have b3 := mul_le_mul_of_nonneg_left l1 r2
  have b4 := mul_le_mul_of_nonneg_left l2 r2
  have b5 := mul_le_mul_of_nonneg_left m1 r3
  have b6 := mul_le_mul_of_nonneg_left m2 r3
  have c1 : lo = (w1 + w2 + w3) * lo := by rw [hs, one_mul]
  have c2 : hi = (w1 + w2 + w3) * hi := by rw [hs, one_mul]
  constructor
  · rw [c1]; linarith
  · rw [c2]; linarith

/-- **C69 (small cells).** Let the regular fluxes of the two faces of a planar cell with positive volume and the boundary fluxes of the cell and of its two
neighbours lie in an interval of length `M`. Then the value of the cell changes by at most `dt / dx * M`, however small the cell is. -/
theorem cut_cell_bounded (lam : K) (hlam : 0 ≤ lam) (u alpha center fB beta f : Int → K)
    (hg : ∀ i, IsPlanarCell (beta i) (beta (i + 1)) (alpha i) (center i)) (i : Int) (ha : 0 < alpha i) (lo hi : K)
    (h1 : lo ≤ f i ∧ f i ≤ hi) (h2 : lo ≤ f (i + 1) ∧ f (i + 1) ≤ hi) (h3 : lo ≤ fB (i - 1) ∧ fB (i - 1) ≤ hi)
    (h4 : lo ≤ fB i ∧ fB i ≤ hi) (h5 : lo ≤ fB (i + 1) ∧ fB (i + 1) ≤ hi) :
    |cutLineStep lam u alpha center fB beta f i - u i| ≤ lam * (hi - lo) := by
  have hb : ∀ k, 0 ≤ beta k := fun k => (hg k).left_nonneg
  have hi1 : i + 1 - 1 = i := by ring
  have hM : 0 ≤ hi - lo := by linarith
  have g := hg i
  have dif : ∀ x y : K, (lo ≤ x ∧ x ≤ hi) → (lo ≤ y ∧ y ≤ hi) → |x - y| ≤ hi - lo := fun x y hx hy =>
    abs_le.2 ⟨by linarith [hx.1, hy.2], by linarith [hx.2, hy.1]⟩
  have conv : ∀ d x y : K, 0 ≤ d ∧ d ≤ 1 → (lo ≤ x ∧ x ≤ hi) → (lo ≤ y ∧ y ≤ hi) → lo ≤ d * x + (1 - d) * y ∧ d * x + (1 - d) * y ≤ hi := by
    intro d x y hd hx hy
    have a1 := mul_le_mul_of_nonneg_left hx.1 hd.1
    have a2 := mul_le_mul_of_nonneg_left hx.2 hd.1
    have a3 := mul_le_mul_of_nonneg_left hy.1 (sub_nonneg.2 hd.2)
    have a4 := mul_le_mul_of_nonneg_left hy.2 (sub_nonneg.2 hd.2)
    constructor <;> linarith
  have comb : ∀ w1 w2 w3 x1 x2 x3 : K, 0 ≤ w1 → 0 ≤ w2 → 0 ≤ w3 → w1 + w2 + w3 ≤ 1 → (w1 + w2 = 0 ∨ (|x1| ≤ hi - lo ∧ |x2| ≤ hi - lo)) → |x3| ≤ hi - lo →
      |lam * w1 * x1 + lam * w2 * x2 + lam * w3 * x3| ≤ lam * (hi - lo) := by
    intro w1 w2 w3 x1 x2 x3 p1 p2 p3 hw h12 hx3
    have e : lam * w1 * x1 + lam * w2 * x2 + lam * w3 * x3 = lam * (w1 * x1 + w2 * x2 + w3 * x3) := by ring
    rw [e, abs_mul, abs_of_nonneg hlam]
    refine mul_le_mul_of_nonneg_left ?_ hlam
    have hb1 : |w1 * x1 + w2 * x2| ≤ (w1 + w2) * (hi - lo) := by
      rcases h12 with hz | ⟨q1, q2⟩
      · have z1 : w1 = 0 := by linarith
        have z2 : w2 = 0 := by linarith
        rw [z1, z2]; simp
      · refine (abs_add_le _ _).trans ?_
        rw [abs_mul, abs_mul, abs_of_nonneg p1, abs_of_nonneg p2, add_mul]
        exact add_le_add (mul_le_mul_of_nonneg_left q1 p1) (mul_le_mul_of_nonneg_left q2 p2)
    have hb3 : |w3 * x3| ≤ w3 * (hi - lo) := by rw [abs_mul, abs_of_nonneg p3]; exact mul_le_mul_of_nonneg_left hx3 p3
    calc |w1 * x1 + w2 * x2 + w3 * x3| ≤ (w1 + w2) * (hi - lo) + w3 * (hi - lo) := (abs_add_le _ _).trans (add_le_add hb1 hb3)
      _ = (w1 + w2 + w3) * (hi - lo) := by ring
      _ ≤ 1 * (hi - lo) := mul_le_mul_of_nonneg_right hw hM
      _ = hi - lo := one_mul _
  have FL : 0 < beta i → ¬IsDoublyShielded beta i → lo ≤ (kbnLine beta center fB f i).stable ∧ (kbnLine beta center fB f i).stable ≤ hi :=
    fun q1 q2 => kbn_flux_between beta center fB f hb i q1 q2 lo hi h1 h3 h4
  have FR : 0 < beta (i + 1) → ¬IsDoublyShielded beta (i + 1) →
      lo ≤ (kbnLine beta center fB f (i + 1)).stable ∧ (kbnLine beta center fB f (i + 1)).stable ≤ hi :=
    fun q1 q2 => kbn_flux_between beta center fB f hb (i + 1) q1 q2 lo hi h2 (by rw [hi1]; exact h4) h5
  rcases lt_trichotomy (beta i) (beta (i + 1)) with h | h | h
  · have hne : beta i ≠ beta (i + 1) := h.ne
    obtain ⟨c1, c2⟩ := g.inside hne
    have hv : alpha i = beta i + (beta (i + 1) - beta i) * (1 / 2 - center i) := (g.volume_ge h.le).resolve_right fun h' => hne h'.1
    obtain ⟨⟨us0, sL0, sR0, ds0⟩, hs, -, -, e2, -⟩ := face_parts (beta (i + 1 - 1)) (beta (i + 1)) (beta (i + 1 + 1)) (hb _) (hb _) (hb _)
    have hP : fillCutCellLane (beta (i + 1 - 1)) (beta (i + 1)) (beta (i + 1 + 1)) = faceParts beta (i + 1) := rfl
    rw [hP] at us0 sL0 sR0 ds0 hs e2
    rw [hi1, min_eq_right h.le] at e2
    have hd : 0 ≤ 1 / 2 - center i := by linarith
    have hle : (faceParts beta (i + 1)).us + (faceParts beta (i + 1)).sR + (faceParts beta (i + 1)).sL * (1 / 2 - center i) ≤ alpha i := by
      have : (faceParts beta (i + 1)).sL ≤ beta (i + 1) - beta i := by linarith
      have := mul_le_mul_of_nonneg_right this hd
      rw [e2]; linarith
    have hcl : clamp01 ((faceParts beta (i + 1)).sL * (1 / 2 - center i) / alpha i) = (faceParts beta (i + 1)).sL * (1 / 2 - center i) / alpha i :=
      clamp01_id (by positivity) ((div_le_one ha).2 (by linarith))
    have hstep : cutLineStep lam u alpha center fB beta f i = cutRightGreater lam (u i) (alpha i) (center i) (fB i) (cutFace beta (i + 1))
        (kbnLine beta center fB f i) (kbnLine beta center fB f (i + 1)) := by
      unfold cutLineStep cutUpdateScalar
      rw [if_neg ha.ne', if_neg (by exact hne), if_neg (by exact not_lt.2 h.le)]
    rw [hstep]
    simp only [cutRightGreater, cutFace, hcl]
    rw [show ∀ a b c e : K, a + b + c + e - a = b + c + e from fun a b c e => by ring]
    refine comb _ _ _ _ _ _ (by positivity) (by positivity) (by positivity) ?_ ?_ (dif _ _ h4 h2)
    · rw [← add_div, ← add_div, div_le_one ha]; exact hle
    · rcases (hb i).lt_or_eq with hbi | hbi
      · have q := FL hbi fun hd => absurd hd.2 (not_lt.2 h.le)
        exact Or.inr ⟨dif _ _ q h2, dif _ _ q (conv _ _ _ (clamp01_mem _) h2 h5)⟩
      · left; rw [← add_div, e2, ← hbi, zero_div]
  · have hal : alpha i = beta i := by
      rcases g.volume_le h.ge with h' | h'
      · rw [h', ← h]; ring
      · exact h'.2
    have hbi : 0 < beta i := hal ▸ ha
    have q1 := FL hbi fun hd => absurd hd.2 (not_lt.2 h.le)
    have q2 := FR (h ▸ hbi) fun hd => by rw [IsDoublyShielded, hi1] at hd; exact absurd hd.1 (not_lt.2 h.ge)
    have hstep : cutLineStep lam u alpha center fB beta f i - u i = lam * ((kbnLine beta center fB f i).stable - (kbnLine beta center fB f (i + 1)).stable) := by
      unfold cutLineStep cutUpdateScalar
      rw [if_neg ha.ne', if_pos (by exact h)]; ring
    rw [hstep, abs_mul, abs_of_nonneg hlam]
    exact mul_le_mul_of_nonneg_left (dif _ _ q1 q2) hlam
  · have hne : beta i ≠ beta (i + 1) := h.ne'
    obtain ⟨c1, c2⟩ := g.inside hne
    have hv : alpha i = beta (i + 1) + (beta i - beta (i + 1)) * (center i + 1 / 2) := (g.volume_le h.le).resolve_right fun h' => hne h'.1
    obtain ⟨⟨us0, sL0, sR0, ds0⟩, hs, -, e1, -, -⟩ := face_parts (beta (i - 1)) (beta i) (beta (i + 1)) (hb _) (hb _) (hb _)
    have hP : fillCutCellLane (beta (i - 1)) (beta i) (beta (i + 1)) = faceParts beta i := rfl
    rw [hP] at us0 sL0 sR0 ds0 hs e1
    rw [min_eq_right h.le] at e1
    have hd : 0 ≤ 1 / 2 + center i := by linarith
    have hle : (faceParts beta i).us + (faceParts beta i).sL + (faceParts beta i).sR * (1 / 2 + center i) ≤ alpha i := by
      have : (faceParts beta i).sR ≤ beta i - beta (i + 1) := by linarith
      have := mul_le_mul_of_nonneg_right this hd
      rw [e1]; linarith
    have hcl : clamp01 ((faceParts beta i).sR * (1 / 2 + center i) / alpha i) = (faceParts beta i).sR * (1 / 2 + center i) / alpha i :=
      clamp01_id (by positivity) ((div_le_one ha).2 (by linarith))
    have hstep : cutLineStep lam u alpha center fB beta f i = cutLeftGreater lam (u i) (alpha i) (center i) (fB i) (cutFace beta i)
        (kbnLine beta center fB f i) (kbnLine beta center fB f (i + 1)) := by
      unfold cutLineStep cutUpdateScalar
      rw [if_neg ha.ne', if_neg (by exact hne), if_pos (by exact h)]
    rw [hstep]
    simp only [cutLeftGreater, cutFace, hcl]
    rw [show ∀ a b c e : K, a + b + c + e - a = b + c + e from fun a b c e => by ring]
    refine comb _ _ _ _ _ _ (by positivity) (by positivity) (by positivity) ?_ ?_ (dif _ _ h1 h4)
    · rw [← add_div, ← add_div, div_le_one ha]; exact hle
    · rcases (hb (i + 1)).lt_or_eq with hbi | hbi
      · have q := FR hbi fun hd => by rw [IsDoublyShielded, hi1] at hd; exact absurd hd.1 (not_lt.2 h.le)
        exact Or.inr ⟨dif _ _ h1 q, dif _ _ (conv _ _ _ (clamp01_mem _) h1 h3) q⟩
      · left; rw [← add_div, e1, ← hbi, zero_div]

/-- **C69 (uniform flow).** If the regular and the boundary fluxes are all the same, planar cells with positive volume keep their values, next to
doubly shielded faces too. -/
theorem cut_uniform (lam : K) (hlam : 0 ≤ lam) (u alpha center beta : Int → K) (F : K)
    (hg : ∀ i, IsPlanarCell (beta i) (beta (i + 1)) (alpha i) (center i)) (i : Int) (ha : 0 < alpha i) :
    cutLineStep lam u alpha center (fun _ => F) beta (fun _ => F) i = u i := by
  have h : F ≤ F ∧ F ≤ F := ⟨le_rfl, le_rfl⟩
  have := cut_cell_bounded lam hlam u alpha center (fun _ => F) beta (fun _ => F) hg i ha F F h h h h h
  rw [sub_self, mul_zero] at this
  exact sub_eq_zero.1 (abs_eq_zero.1 (le_antisymm this (abs_nonneg _)))

/-- A line with a regular cell, a cut cell (faces 1 and 1/3, wall on average in the middle) and a small cell (faces 1/3 and 0, wall at -1/4). -/
def exBeta : Int → ℚ := fun k => if k ≤ 1 then 1 else if k = 2 then 1/3 else 0
def exAlpha : Int → ℚ := fun k => if k ≤ 0 then 1 else if k = 1 then 2/3 else if k = 2 then 1/12 else 0
def exCenter : Int → ℚ := fun k => if k = 2 then -(1/4) else 0

theorem exLine_planar : ∀ i, IsPlanarCell (exBeta i) (exBeta (i + 1)) (exAlpha i) (exCenter i) := by
  intro i
  rcases lt_trichotomy i 1 with h | rfl | h
  · have e : exBeta i = 1 ∧ exBeta (i + 1) = 1 ∧ exAlpha i = 1 := by
      simp only [exBeta, exAlpha, if_pos h.le, if_pos (show i + 1 ≤ 1 by omega), if_pos (show i ≤ 0 by omega), and_self]
    rw [e.1, e.2.1, e.2.2]
    exact ⟨by norm_num, by norm_num, fun h => absurd rfl h, fun _ => Or.inr ⟨rfl, rfl⟩, fun _ => Or.inr ⟨rfl, rfl⟩, fun h => absurd rfl h⟩
  · have e : exBeta 1 = 1 ∧ exBeta (1 + 1) = 1/3 ∧ exAlpha 1 = 2/3 ∧ exCenter 1 = 0 := by decide +kernel
    rw [e.1, e.2.1, e.2.2.1, e.2.2.2]
    exact ⟨by norm_num, by norm_num, fun _ => by norm_num, fun _ => Or.inl (by norm_num), fun h => absurd h (by norm_num), fun _ => by norm_num⟩
  · rcases eq_or_lt_of_le (show 2 ≤ i by omega) with rfl | h2
    · have e : exBeta 2 = 1/3 ∧ exBeta (2 + 1) = 0 ∧ exAlpha 2 = 1/12 ∧ exCenter 2 = -(1/4) := by decide +kernel
      rw [e.1, e.2.1, e.2.2.1, e.2.2.2]
      exact ⟨by norm_num, by norm_num, fun _ => by norm_num, fun _ => Or.inl (by norm_num), fun h => absurd h (by norm_num), fun _ => by norm_num⟩
    · have e : exBeta i = 0 ∧ exBeta (i + 1) = 0 ∧ exAlpha i = 0 := by
        simp only [exBeta, exAlpha, if_neg (show ¬i ≤ 1 by omega), if_neg (show ¬i = 2 by omega), if_neg (show ¬i + 1 ≤ 1 by omega),
          if_neg (show ¬i + 1 = 2 by omega), if_neg (show ¬i ≤ 0 by omega), if_neg (show ¬i = 1 by omega), and_self]
      rw [e.1, e.2.1, e.2.2]
      exact ⟨le_rfl, le_rfl, fun h => absurd rfl h, fun _ => Or.inr ⟨rfl, rfl⟩, fun _ => Or.inr ⟨rfl, rfl⟩, fun h => absurd rfl h⟩

/-- On this line the update does change values: with regular flux 1 and boundary flux 0 the small cell gains `dt / dx`, times one. -/
example : cutLineStep (1/2 : ℚ) (fun _ => 1) exAlpha exCenter (fun _ => 0) exBeta (fun _ => 1) 2 = 3/2 ∧
    cutLineStep (1/2 : ℚ) (fun _ => 1) exAlpha exCenter (fun _ => 0) exBeta (fun _ => 1) 1 = 23/16 := by
  norm_num [cutLineStep, cutUpdateScalar, cutLeftGreater, cutRightGreater, cutFace, kbnLine, kbnStableFlux, faceParts, fillCutCellLane, clamp01, exAlpha, exBeta, exCenter]

/-! ### C70: SIMD loop and the other integrator -/

/-- **C70.** For every width of the packs and every row without negative volumes: a cell with positive volume gets the value of the scalar loop, whether
it is handled in a pack, whatever its neighbours in the pack are, or in the remainder. -/
theorem cut_row_simd (w n : ℕ) (lam : K) (c : ℕ → CutInput K) (i : ℕ) (hw : 0 < w) (hi : i < n) (ha : 0 < (c i).alpha) :
    cutUpdateRow w n lam c i =
      some (cutUpdateScalar lam (c i).prev (c i).alpha (c i).center (c i).fB (c i).bL (c i).bR (c i).fL (c i).fR) := by
  unfold cutUpdateRow
  rw [if_pos hi]
  split
  · have hd : ¬∀ j < w, (c (i / w * w + j)).alpha = 0 := fun h => by
      have e : i / w * w + i % w = i := by rw [mul_comm]; exact Nat.div_add_mod i w
      have := h (i % w) (Nat.mod_lt _ hw)
      rw [e] at this
      exact ha.ne' this
    rw [decide_eq_false hd]
    congr 1
    unfold cutUpdateLane cutUpdateScalar
    simp only [if_neg ha.ne', ha, true_and, if_true, Bool.false_eq_true, if_false]
    rcases lt_trichotomy (c i).bL.beta (c i).bR.beta with h | h | h
    · simp only [if_neg h.ne, if_neg (not_lt.2 h.le), if_pos h]
    · rw [if_pos h, if_neg (not_lt.2 h.ge), if_neg (not_lt.2 h.le)]
    · rw [if_neg h.ne', if_pos h, if_neg (not_lt.2 h.le), if_pos h]
  · rfl

/-- **C70 (covered cells).** In the scalar loop and in packs of covered cells, cells without volume become zero. -/
theorem cut_row_covered (w n : ℕ) (lam : K) (c : ℕ → CutInput K) (i : ℕ) (hi : i < n) (ha : (c i).alpha = 0)
    (h : n < i / w * w + w ∨ ∀ j < w, (c (i / w * w + j)).alpha = 0) : cutUpdateRow w n lam c i = some 0 := by
  unfold cutUpdateRow
  rw [if_pos hi]
  split
  · rename_i h'
    rw [decide_eq_true (h.resolve_left (not_lt.2 h'))]
    simp [cutUpdateLane]
  · unfold cutUpdateScalar
    rw [if_pos ha]

/-- The data of a covered cell with value `u`. -/
def coveredCell (u : ℚ) : CutInput ℚ := ⟨u, 0, 0, 0, ⟨0, 0, 0, 0⟩, ⟨0, 0, 0, 0⟩, ⟨0, 0, 0, 0⟩, ⟨0, 0, 0, 0⟩⟩
/-- The data of a regular cell with value `u` and fluxes zero. -/
def regularCell (u : ℚ) : CutInput ℚ := ⟨u, 1, 0, 0, ⟨1, 1, 0, 0⟩, ⟨1, 1, 0, 0⟩, ⟨0, 0, 0, 0⟩, ⟨0, 0, 0, 0⟩⟩

/-- **C70 is false of covered cells:** in a pack with a cell that has volume, a covered cell keeps its value, in the scalar loop it becomes zero. The
result for covered cells thus depends on the position in the row and on the width of the packs. -/
theorem cut_row_covered_mixed :
    ∃ c : ℕ → CutInput ℚ, (c 0).alpha = 0 ∧ cutUpdateRow 2 2 1 c 0 = some 7 ∧ cutUpdateRow 1 2 1 c 0 = some 0 ∧ cutUpdateRow 4 2 1 c 0 = some 0 := by
  refine ⟨fun i => if i = 0 then coveredCell 7 else regularCell 1, rfl, ?_, ?_, ?_⟩
  · have : ¬∀ j < 2, ((if 0 / 2 * 2 + j = 0 then coveredCell 7 else regularCell 1 : CutInput ℚ)).alpha = 0 := fun h => by
      have := h 1 (by norm_num)
      norm_num [regularCell] at this
    unfold cutUpdateRow
    rw [if_pos (by norm_num), if_pos (by norm_num), decide_eq_false this]
    norm_num [cutUpdateLane, coveredCell]
  · exact cut_row_covered 1 2 1 _ 0 (by norm_num) rfl (Or.inr fun j hj => by
      have : j = 0 := by omega
      subst this; rfl)
  · exact cut_row_covered 4 2 1 _ 0 (by norm_num) rfl (Or.inl (by norm_num))

/-- **C68 (other integrator).** The update of `TimeIntegrator2` satisfies the balance in every cell with positive volume where it does not fail its assertion;
it fails it exactly in cells with equal faces whose volume fraction is different. -/
theorem cut_update2_balance (lam old prev alpha fB bL bR fL fR : K) (ha : 0 < alpha) :
    (∀ next, cutUpdate2 lam old prev alpha fB bL bR fL fR = some next →
      alpha * (next - prev) = lam * (bL * fL - bR * fR - (bL - bR) * fB)) ∧
    (cutUpdate2 lam old prev alpha fB bL bR fL fR = none ↔ bL = bR ∧ alpha ≠ bL) := by
  unfold cutUpdate2
  rw [if_pos ha]
  constructor
  · intro next h
    split_ifs at h with h1 h2
    · obtain rfl := Option.some.inj h
      rw [← h1, h2]; ring
    · obtain rfl := Option.some.inj h
      field_simp; ring
  · split_ifs with h1 h2
    · exact ⟨fun h => (by cases h), fun h => absurd h2 h.2⟩
    · exact ⟨fun _ => ⟨h1, h2⟩, fun _ => rfl⟩
    · exact ⟨fun h => (by cases h), fun h => absurd h.1 h1⟩

/-- **C69 is false of `TimeIntegrator2`:** for every bound there is a planar cell in which fluxes between zero and one change the value by more
than that bound times `dt / dx`. -/
theorem cut_update2_unbounded (B : K) : ∃ alpha c : K, IsPlanarCell (1 : K) 0 alpha c ∧
    ∃ next, cutUpdate2 1 0 0 alpha 0 1 0 1 0 = some next ∧ B < next := by
  have hB : 0 < 1 / (|B| + 2) := by positivity
  have hB2 : 1 / (|B| + 2) ≤ 1 := by rw [div_le_one (by positivity)]; linarith [abs_nonneg B]
  refine ⟨1 / (|B| + 2), 1 / (|B| + 2) - 1 / 2, ⟨zero_le_one, le_rfl, fun _ => ⟨by linarith, by linarith⟩, fun _ => Or.inl (by ring),
    fun h => absurd h (by norm_num), fun _ => hB⟩, 1 / (1 / (|B| + 2)), ?_, ?_⟩
  · unfold cutUpdate2
    rw [if_pos hB, if_neg one_ne_zero]
    congr 1; ring
  · rw [one_div_one_div]; linarith [le_abs_self B]

/-! ### C73: coarse-fine boundaries -/

/-- **C73, the part that holds.** If the coarse cell is whole and the face and its fine faces are open and not stabilised, the correction replaces what the cell
received through the coarse face by what crossed the fine faces. -/
theorem cut_reflux_partial (volume u : K) (hv : volume ≠ 0) (coarse : RegFace K) (fine : List (RegFace K))
    (hc : coarse.beta = 1 ∧ coarse.stable = coarse.regular) (hf : ∀ r ∈ fine, r.beta = 1 ∧ r.stable = r.regular) :
    volume * cutReflux volume u (cutRegister coarse fine) = volume * u - coarse.exchange + (fine.map RegFace.exchange).sum := by
  have e : fine.map RegFace.exchange = fine.map fun r => r.dt * r.area * r.regular :=
    List.map_congr_left fun r hr => by rw [RegFace.exchange, (hf r hr).1, (hf r hr).2]; ring
  rw [e, cutReflux, cutRegister, RegFace.exchange, hc.1, hc.2]
  field_simp
  ring

/-- For any geometry: the correction that the content of the cell gets. What it needs is `-coarse.exchange + Σ fine.exchange`. -/
theorem cut_reflux_content (volume alpha u : K) (hv : volume ≠ 0) (coarse : RegFace K) (fine : List (RegFace K)) :
    alpha * volume * cutReflux volume u (cutRegister coarse fine) =
      alpha * volume * u + alpha * (-(coarse.dt * coarse.area * coarse.regular) + (fine.map fun r => r.dt * r.area * r.regular).sum) := by
  rw [cutReflux, cutRegister]
  field_simp

/-- **C73 fails at cut cells.** Already with open faces and unstabilised fluxes, a cut coarse cell gets only its volume fraction of the correction; and with a
whole coarse cell a face that is half open gets too much. -/
theorem cut_reflux_wrong :
    (∃ (alpha : ℚ) (coarse : RegFace ℚ) (fine : List (RegFace ℚ)), 0 < alpha ∧ (∀ r ∈ coarse :: fine, r.beta = 1 ∧ r.stable = r.regular) ∧
      (fine.map fun r => r.area * r.dt).sum = coarse.area * coarse.dt ∧
      alpha * 1 * cutReflux 1 0 (cutRegister coarse fine) ≠ alpha * 1 * 0 - coarse.exchange + (fine.map RegFace.exchange).sum) ∧
    ∃ (coarse : RegFace ℚ) (fine : List (RegFace ℚ)), (∀ r ∈ coarse :: fine, r.beta = 1 / 2 ∧ r.stable = r.regular) ∧
      (fine.map fun r => r.area * r.dt).sum = coarse.area * coarse.dt ∧
      1 * cutReflux 1 0 (cutRegister coarse fine) ≠ 1 * 0 - coarse.exchange + (fine.map RegFace.exchange).sum := by
  refine ⟨⟨1/2, ⟨1, 1, 1, 1, 1⟩, [⟨1/2, 1, 2, 2, 1/2⟩, ⟨1/2, 1, 1, 1, 1/2⟩, ⟨1/2, 1, 2, 2, 1/2⟩, ⟨1/2, 1, 1, 1, 1/2⟩], by norm_num, ?_, ?_, ?_⟩,
    ⟨⟨1, 1/2, 1, 1, 1⟩, [⟨1/2, 1/2, 2, 2, 1/2⟩, ⟨1/2, 1/2, 1, 1, 1/2⟩, ⟨1/2, 1/2, 2, 2, 1/2⟩, ⟨1/2, 1/2, 1, 1, 1/2⟩], ?_, ?_, ?_⟩⟩
  · intro r hr; fin_cases hr <;> exact ⟨rfl, rfl⟩
  · norm_num
  · norm_num [cutReflux, cutRegister, RegFace.exchange]
  · intro r hr; fin_cases hr <;> exact ⟨rfl, rfl⟩
  · norm_num
  · norm_num [cutReflux, cutRegister, RegFace.exchange]

/-- Two fine faces and two substeps that carry more than the coarse face: the cell gets the difference. -/
example : (1 : ℚ) * cutReflux 1 5 (cutRegister ⟨1, 1, 1, 1, 1⟩ [⟨1/2, 1, 2, 2, 1/2⟩, ⟨1/2, 1, 1, 1, 1/2⟩, ⟨1/2, 1, 2, 2, 1/2⟩, ⟨1/2, 1, 1, 1, 1/2⟩]) = 5 - 1 + 3 / 2 := by
  norm_num [cutReflux, cutRegister]

end Fub
