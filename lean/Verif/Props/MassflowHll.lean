import Verif.Model.Massflow
import Mathlib.Tactic.LinearCombination

/-! C82: the velocity in the ghost cells of `MassflowBoundary` gives the required mass flux. -/

namespace Fub

/-- Specification: the HLL mass flux, in units of density times speed of sound, between two states with the same density and speed of sound and the scaled velocities `uL` and `uR`. The signal velocities are the slower
of `uL - 1` and mean velocity minus one, and the faster of `uR + 1` and mean velocity plus one. -/
noncomputable def hllMass (uL uR : ℝ) : ℝ :=
  let sL := min (uL - 1) ((uL + uR) / 2 - 1)
  let sR := max (uR + 1) ((uL + uR) / 2 + 1)
  if 0 ≤ sL then uL else if sR ≤ 0 then uR else (sR * uL - sL * uR) / (sR - sL)

theorem hllMass_expand {uL uR : ℝ} (h : uL ≤ uR) :
    hllMass uL uR = if 1 ≤ uL then uL else if uR ≤ -1 then uR else (uL + uR) / (uR - uL + 2) := by
  unfold hllMass
  simp only
  rw [min_eq_left (by linarith), max_eq_left (by linarith)]
  by_cases h1 : 1 ≤ uL
  · rw [if_pos (by linarith), if_pos h1]
  · rw [if_neg (by linarith), if_neg h1]
    by_cases h2 : uR ≤ -1
    · rw [if_pos (by linarith), if_pos h2]
    · rw [if_neg (by linarith), if_neg h2]
      congr 1 <;> ring

theorem hllMass_compress {uL uR : ℝ} (h : uR ≤ uL) :
    hllMass uL uR = if 2 ≤ uL + uR then uL else if uL + uR ≤ -2 then uR else (uL + uR) * (uL - uR + 2) / 4 := by
  unfold hllMass
  simp only
  rw [min_eq_right (by linarith), max_eq_right (by linarith)]
  by_cases h1 : 2 ≤ uL + uR
  · rw [if_pos (by linarith), if_pos h1]
  · rw [if_neg (by linarith), if_neg h1]
    by_cases h2 : uL + uR ≤ -2
    · rw [if_pos (by linarith), if_pos h2]
    · rw [if_neg (by linarith), if_neg h2]
      have : (uL + uR) / 2 + 1 - ((uL + uR) / 2 - 1) = 2 := by ring
      rw [this]; ring

/-- **C82 (left boundary).** For every inner velocity and every required mass flux that is above minus one or not below the one of the inner cell, the flux between ghost cell and inner cell is the required one. -/
theorem massflow_left_partial (m uR : ℝ) (h : -1 < m ∨ uR ≤ m) : hllMass (massflowVelocity0 m uR) uR = m := by
  unfold massflowVelocity0
  by_cases h0 : m = uR
  · rw [if_pos h0, hllMass_expand le_rfl, h0]
    split_ifs
    · rfl
    · rfl
    · rw [sub_self]; ring
  rw [if_neg h0]
  by_cases h1 : m < uR
  · have hm : -1 < m := h.resolve_right (not_le.2 h1)
    rw [if_pos h1]
    by_cases h2 : 1 ≤ m
    · rw [if_pos h2, hllMass_expand h1.le, if_pos h2]
    · rw [if_neg h2, if_pos hm]
      have hm1 : 0 < m + 1 := by linarith
      have e1 : (2 * m + uR * (m - 1)) / (m + 1) - uR = 2 * (m - uR) / (m + 1) := by field_simp; ring
      have e2 : (2 * m + uR * (m - 1)) / (m + 1) - 1 = (m - 1) * (1 + uR) / (m + 1) := by field_simp; ring
      have k1 : 2 * (m - uR) / (m + 1) < 0 := div_neg_of_neg_of_pos (by linarith) hm1
      have k2 : (m - 1) * (1 + uR) / (m + 1) < 0 := div_neg_of_neg_of_pos (mul_neg_of_neg_of_pos (by linarith) (by linarith)) hm1
      rw [hllMass_expand (by linarith), if_neg (by linarith), if_neg (by linarith)]
      have hd : uR - (2 * m + uR * (m - 1)) / (m + 1) + 2 = 2 * (uR + 1) / (m + 1) := by field_simp; ring
      have hu : uR + 1 ≠ 0 := by linarith
      rw [hd]
      field_simp
      ring
  · rw [if_neg h1]
    have h1' : uR < m := lt_of_le_of_ne (not_lt.1 h1) (Ne.symm h0)
    by_cases h2 : 2 - m ≤ uR
    · rw [if_pos h2, hllMass_compress h1'.le, if_pos (by linarith)]
    · rw [if_neg h2]
      push Not at h2
      have hpos : (uR + 1) ^ 2 < 4 * m + (uR - 1) * (uR - 1) := by nlinarith
      have hnn : 0 ≤ 4 * m + (uR - 1) * (uR - 1) := (sq_nonneg _).trans hpos.le
      have hsq := Real.mul_self_sqrt hnn
      have k1 : |uR + 1| < Real.sqrt (4 * m + (uR - 1) * (uR - 1)) := Real.lt_sqrt_of_sq_lt (by rw [sq_abs]; exact hpos)
      have k2 : Real.sqrt (4 * m + (uR - 1) * (uR - 1)) < 3 - uR := by
        rw [Real.sqrt_lt' (by linarith)]
        nlinarith
      obtain ⟨a1, a2⟩ := abs_lt.1 k1
      generalize Real.sqrt (4 * m + (uR - 1) * (uR - 1)) = w at *
      rw [hllMass_compress (by linarith), if_neg (by linarith), if_neg (by linarith)]
      linear_combination hsq / 4

/-- **C82 (right boundary), the part that holds.** For a gas at rest and every required mass flux below one, and for every inner velocity and required mass flux that is larger than the one of the inner cell and below one. -/
theorem massflow_right_partial (m uL : ℝ) (h : (uL = 0 ∧ m < 1) ∨ (uL < m ∧ m < 1) ∨ m = uL) : hllMass uL (massflowVelocity1 m uL) = m := by
  unfold massflowVelocity1
  by_cases h0 : m = uL
  · rw [if_pos h0, hllMass_expand le_rfl, h0]
    split_ifs
    · rfl
    · rfl
    · rw [sub_self]; ring
  rw [if_neg h0]
  by_cases h1 : uL < m
  · have hm : m < 1 := by rcases h with h | h | h
                          · exact h.2
                          · exact h.2
                          · exact absurd h h0
    rw [if_pos h1, if_neg (by linarith)]
    by_cases h2 : -1 < m
    · rw [if_pos h2]
      have hm1 : 0 < 1 - m := by linarith
      have e1 : (2 * m - uL * (m + 1)) / (1 - m) - uL = 2 * (m - uL) / (1 - m) := by field_simp; ring
      have e2 : (2 * m - uL * (m + 1)) / (1 - m) + 1 = (m + 1) * (1 - uL) / (1 - m) := by field_simp; ring
      have k1 : 0 < 2 * (m - uL) / (1 - m) := div_pos (by linarith) hm1
      have k2 : 0 < (m + 1) * (1 - uL) / (1 - m) := div_pos (mul_pos (by linarith) (by linarith)) hm1
      rw [hllMass_expand (by linarith), if_neg (by linarith), if_neg (by linarith)]
      have hd : (2 * m - uL * (m + 1)) / (1 - m) - uL + 2 = 2 * (1 - uL) / (1 - m) := by field_simp; ring
      have hu : 1 - uL ≠ 0 := by linarith
      rw [hd]
      field_simp
      ring
    · rw [if_neg h2, hllMass_expand h1.le, if_neg (by linarith), if_pos (not_lt.1 h2)]
  · have h1' : m < uL := lt_of_le_of_ne (not_lt.1 h1) h0
    have hu0 : uL = 0 := by rcases h with h | h | h
                            · exact h.1
                            · exact absurd h.1 h1
                            · exact absurd h h0
    subst hu0
    rw [if_neg h1]
    by_cases h2 : m ≤ -(2 - 0)
    · rw [if_pos h2, hllMass_compress h1'.le, if_neg (by linarith), if_pos (by linarith)]
    · rw [if_neg h2]
      push Not at h2
      have hnn : (1 : ℝ) < (0 + 1) * (0 + 1) - 4 * m := by linarith
      have hsq := Real.mul_self_sqrt (by linarith : (0 : ℝ) ≤ (0 + 1) * (0 + 1) - 4 * m)
      have k1 : 1 < Real.sqrt ((0 + 1) * (0 + 1) - 4 * m) := Real.lt_sqrt_of_sq_lt (by linarith)
      have k2 : Real.sqrt ((0 + 1) * (0 + 1) - 4 * m) < 3 := by
        rw [Real.sqrt_lt' (by norm_num)]
        linarith
      generalize Real.sqrt ((0 + 1) * (0 + 1) - 4 * m) = w at *
      rw [hllMass_compress (by linarith), if_neg (by linarith), if_neg (by linarith)]
      linear_combination -hsq / 4

/-- **C82 (right boundary) is false for decelerated flow.** The test for supersonic inflow has the wrong sign of the inner velocity: the required flux is missed in every case in which the test of the code and the right test
`m ≤ -2 - uL`, the mirror image of the test for the left boundary, disagree. -/
theorem massflow_right_wrong (m uL : ℝ) (hm : m < uL) :
    (-2 - uL < m → m ≤ uL - 2 → hllMass uL (massflowVelocity1 m uL) ≠ m) ∧
    (uL - 2 < m → m < -2 - uL → hllMass uL (massflowVelocity1 m uL) ≠ m) ∧
    (uL - 2 < m → -2 - uL ≤ m → hllMass uL (massflowVelocity1 m uL) = m) ∧
    (m ≤ uL - 2 → m ≤ -2 - uL → hllMass uL (massflowVelocity1 m uL) = m) := by
  have hne : m ≠ uL := hm.ne
  unfold massflowVelocity1
  rw [if_neg hne, if_neg (not_lt.2 hm.le)]
  have root : ∀ h2 : uL - 2 < m, ∃ w, 0 ≤ w ∧ w * w = (uL + 1) * (uL + 1) - 4 * m ∧ |uL - 1| < w ∧ (if m ≤ -(2 - uL) then m else 1 - Real.sqrt ((uL + 1) * (uL + 1) - 4 * m)) = 1 - w := by
    intro h2
    have hpos : (uL - 1) ^ 2 < (uL + 1) * (uL + 1) - 4 * m := by nlinarith
    have hnn : 0 ≤ (uL + 1) * (uL + 1) - 4 * m := (sq_nonneg _).trans hpos.le
    exact ⟨_, Real.sqrt_nonneg _, Real.mul_self_sqrt hnn, Real.lt_sqrt_of_sq_lt (by rw [sq_abs]; exact hpos), by rw [if_neg (by linarith)]⟩
  refine ⟨fun h1 h2 => ?_, fun h1 h2 => ?_, fun h1 h2 => ?_, fun h1 h2 => by
    rw [if_pos (by linarith), hllMass_compress hm.le, if_neg (by linarith), if_pos (by linarith)]⟩
  · rw [if_pos (by linarith)]
    have hu : 0 < uL := by linarith
    by_cases h3 : 2 ≤ uL + m
    · rw [hllMass_compress hm.le, if_pos h3]; exact hne.symm
    · rw [hllMass_compress hm.le, if_neg h3, if_neg (by linarith)]
      intro he
      have : (uL - m) * (uL + m + 2) = 0 := by linear_combination 4 * he
      rcases mul_eq_zero.1 this with h | h <;> linarith
  · obtain ⟨w, w0, w1, w2, w3⟩ := root h1
    rw [w3]
    obtain ⟨a1, a2⟩ := abs_lt.1 w2
    have hw : uL + 3 < w := by nlinarith
    rw [hllMass_compress (by linarith), if_neg (by linarith), if_pos (by linarith)]
    intro he
    have : (uL - m) * (uL + m + 2) = 0 := by
      have hwm : w = 1 - m := by linarith
      rw [hwm] at w1
      linear_combination -w1
    rcases mul_eq_zero.1 this with h | h <;> linarith
  · obtain ⟨w, w0, w1, w2, w3⟩ := root h1
    rw [w3]
    obtain ⟨a1, a2⟩ := abs_lt.1 w2
    rcases h2.eq_or_lt with h2 | h2
    · have hw : w = uL + 3 := by
        have : (w - (uL + 3)) * (w + (uL + 3)) = 0 := by rw [← h2] at w1; linear_combination w1
        rcases mul_eq_zero.1 this with h | h <;> linarith
      rw [hllMass_compress (by linarith), if_neg (by linarith), if_pos (by linarith)]
      linarith
    have hw : w < uL + 3 := by
      have : 0 < uL + 3 := by linarith
      nlinarith
    rw [hllMass_compress (by linarith), if_neg (by linarith), if_neg (by linarith)]
    linear_combination -w1 / 4

/-- **C82, what no ghost state can do.** A required flux of minus one or less out of the left boundary cannot be reached by accelerating the flow: the flux stays above it for every velocity in the ghost cell that is at most
the one of the inner cell. The code then uses minus one. -/
theorem massflow_left_choked (m uL uR : ℝ) (hm : m ≤ -1) (hR : -1 < uR) (h : uL ≤ uR) : m < hllMass uL uR := by
  rw [hllMass_expand h]
  split_ifs with h1 h2
  · linarith
  · linarith
  · rw [lt_div_iff₀ (by linarith)]
    nlinarith

/-- The hypotheses are met, and the wrong test matters for a simple case: an outflow with half of the speed of sound that shall be turned into an inflow with one and a half. -/
example : hllMass (1 / 2) (massflowVelocity1 (-3 / 2) (1 / 2)) ≠ -3 / 2 := (massflow_right_wrong _ _ (by norm_num)).1 (by norm_num) (by norm_num)
example : hllMass (massflowVelocity0 (-3 / 2) (-5 / 2)) (-5 / 2) = -3 / 2 := massflow_left_partial _ _ (Or.inr (by norm_num))
example : hllMass (massflowVelocity0 (1 / 3) (1 / 2)) (1 / 2) = 1 / 3 := massflow_left_partial _ _ (Or.inl (by norm_num))

end Fub
