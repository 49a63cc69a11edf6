import Verif.Model.Limiter
import Verif.Spec.Limiter
import Mathlib.Tactic.Ring
import Mathlib.Tactic.Linarith
import Mathlib.Tactic.FieldSimp
import Mathlib.Tactic.Positivity
import Mathlib.Data.Rat.Defs
import Mathlib.Algebra.Order.Field.Rat

/-! C28: slope limiters. -/

namespace Fub
variable {K : Type} [Field K] [LinearOrder K] [IsStrictOrderedRing K]

theorem min_neg_neg' (a b : K) : min (-a) (-b) = -max a b := by
  rcases le_total a b with h | h
  · rw [max_eq_right h, min_eq_right (by linarith)]
  · rw [max_eq_left h, min_eq_left (by linarith)]

theorem max_neg_neg' (a b : K) : max (-a) (-b) = -min a b := by
  rcases le_total a b with h | h
  · rw [min_eq_left h, max_eq_left (by linarith)]
  · rw [min_eq_right h, max_eq_right (by linarith)]

/-- Values of minmod by the signs of the differences. -/
theorem minModSlope_cases (qL qM qR : K) :
    (0 < qM - qL → 0 < qR - qM → minModSlope qL qM qR = min (qM - qL) (qR - qM)) ∧
    (qM - qL < 0 → qR - qM < 0 → minModSlope qL qM qR = max (qM - qL) (qR - qM)) ∧
    ((qM - qL) * (qR - qM) ≤ 0 → minModSlope qL qM qR = 0) := by
  refine ⟨fun h1 h2 => ?_, fun h1 h2 => ?_, fun h => ?_⟩ <;> simp only [minModSlope]
  · rw [if_pos h2, max_eq_right (le_min h1.le h2.le)]
  · rw [if_neg (not_lt.2 h2.le), min_eq_right (max_le h1.le h2.le)]
  · split_ifs with h2
    · have : qM - qL ≤ 0 := by by_contra h3; exact absurd h (not_le.2 (mul_pos (not_le.1 h3) h2))
      exact max_eq_left ((min_le_left _ _).trans this)
    · rcases eq_or_lt_of_le (not_lt.1 h2) with h3 | h3
      · exact min_eq_left (h3 ▸ le_max_right _ _)
      · have : 0 ≤ qM - qL := by by_contra h4; exact absurd h (not_le.2 (mul_pos_of_neg_of_neg (not_le.1 h4) h3))
        exact min_eq_left (this.trans (le_max_left _ _))

theorem vanLeer_cases (a b : K) : (0 < a * b → vanLeer a b = 2 * a * b / (a + b)) ∧ (a * b ≤ 0 → vanLeer a b = 0) := by
  have e : 2 * a * b = 2 * (a * b) := by ring
  refine ⟨fun h => ?_, fun h => ?_⟩ <;> simp only [vanLeer, e]
  · rw [if_pos (by linarith)]
  · rw [if_neg (by linarith)]

/-- **C28 (MUSCL limiters).** For every three-cell stencil, MinMod and VanLeer slopes obey the limiter
specification (with factor 1 and 2), MinMod picks the difference of smaller magnitude and VanLeer the
harmonic mean; both are symmetric under mirroring the stencil and odd under a sign change, invariant under adding a
constant; scalar, array and (unmasked lanes of the) masked array versions agree; masked-out lanes give zero. -/
theorem muscl_limiters (qL qM qR : K) :
    LimitedSlope 1 (qM - qL) (qR - qM) (minModSlope qL qM qR) ∧
    LimitedSlope 2 (qM - qL) (qR - qM) (vanLeerSlope qL qM qR) ∧
    |minModSlope qL qM qR| ≤ |vanLeerSlope qL qM qR| ∧
    (0 < (qM - qL) * (qR - qM) →
      |minModSlope qL qM qR| = min |qM - qL| |qR - qM| ∧
      1 / vanLeerSlope qL qM qR = (1 / (qM - qL) + 1 / (qR - qM)) / 2) ∧
    (minModSlope qR qM qL = -minModSlope qL qM qR ∧ vanLeerSlope qR qM qL = -vanLeerSlope qL qM qR) ∧
    (minModSlope (-qL) (-qM) (-qR) = -minModSlope qL qM qR ∧
      vanLeerSlope (-qL) (-qM) (-qR) = -vanLeerSlope qL qM qR) ∧
    (minModSlopeArray qL qM qR = minModSlope qL qM qR ∧
      (∀ mask, minModSlopeMasked mask qL qM qR = if mask then minModSlope qL qM qR else 0) ∧
      (∀ mask, vanLeerSlopeMasked mask qL qM qR = if mask then vanLeerSlope qL qM qR else 0)) := by
  obtain ⟨mp, mn, mz⟩ := minModSlope_cases qL qM qR
  obtain ⟨mp', mn', mz'⟩ := minModSlope_cases qR qM qL
  obtain ⟨np, nn, nz⟩ := minModSlope_cases (-qL) (-qM) (-qR)
  obtain ⟨vp, vz⟩ := vanLeer_cases (qM - qL) (qR - qM)
  obtain ⟨vp', vz'⟩ := vanLeer_cases (qM - qR) (qL - qM)
  obtain ⟨wp, wz⟩ := vanLeer_cases (-qM - -qL) (-qR - -qM)
  have e1 : qM - qR = -(qR - qM) := by ring
  have e2 : qL - qM = -(qM - qL) := by ring
  have e3 : -qM - -qL = -(qM - qL) := by ring
  have e4 : -qR - -qM = -(qR - qM) := by ring
  simp only [vanLeerSlope]
  simp only [e1, e2] at mp' mn' mz' vp' vz' ⊢
  simp only [e3, e4] at np nn nz wp wz ⊢
  refine ⟨?_, ?_, ?_, ?_, ?_, ?_, ?_⟩
  · generalize qM - qL = a at *; generalize qR - qM = b at *
    refine ⟨fun h1 h2 => ?_, fun h1 h2 => ?_, fun h => mz h⟩
    · rw [mp h1 h2, one_mul, one_mul]; exact ⟨le_min h1.le h2.le, min_le_left _ _, min_le_right _ _⟩
    · rw [mn h1 h2, one_mul, one_mul]; exact ⟨max_le h1.le h2.le, le_max_left _ _, le_max_right _ _⟩
  · generalize qM - qL = a at *; generalize qR - qM = b at *
    refine ⟨fun h1 h2 => ?_, fun h1 h2 => ?_, fun h => vz h⟩
    · rw [vp (mul_pos h1 h2)]
      have h3 : 0 < a + b := by linarith
      refine ⟨by positivity, ?_, ?_⟩ <;> rw [div_le_iff₀ h3] <;> nlinarith [mul_pos h1 h2]
    · rw [vp (mul_pos_of_neg_of_neg h1 h2)]
      have h3 : 0 < -(a + b) := by linarith
      have h4 : 2 * a * b / (a + b) = -(2 * a * b / -(a + b)) := by rw [div_neg, neg_neg]
      have h5 := mul_pos_of_neg_of_neg h1 h2
      rw [h4]
      have h6 : 0 ≤ 2 * a * b / -(a + b) := div_nonneg (by linarith) h3.le
      refine ⟨by linarith, ?_, ?_⟩ <;> rw [le_neg, div_le_iff₀ h3] <;> nlinarith
  · generalize qM - qL = a at *; generalize qR - qM = b at *
    rcases le_or_gt (a * b) 0 with h | h
    · rw [mz h, vz h]
    · rw [vp h]
      rcases lt_or_ge 0 a with ha | ha
      · have hb : 0 < b := by by_contra hb; exact absurd h (not_lt.2 (mul_nonpos_of_nonneg_of_nonpos ha.le (not_lt.1 hb)))
        have h3 : 0 < a + b := by linarith
        rw [mp ha hb, abs_of_nonneg (le_min ha.le hb.le), abs_of_nonneg (by positivity), le_div_iff₀ h3]
        rcases le_total a b with hab | hab
        · rw [min_eq_left hab]; nlinarith
        · rw [min_eq_right hab]; nlinarith
      · have ha : a < 0 := lt_of_le_of_ne ha (by rintro rfl; simp at h)
        have hb : b < 0 := by by_contra hb; exact absurd h (not_lt.2 (mul_nonpos_of_nonpos_of_nonneg ha.le (not_lt.1 hb)))
        have h3 : 0 < -(a + b) := by linarith
        have h4 : 2 * a * b / (a + b) = -(2 * a * b / -(a + b)) := by rw [div_neg, neg_neg]
        have h6 : 0 ≤ 2 * a * b / -(a + b) := div_nonneg (by linarith) h3.le
        rw [mn ha hb, h4, abs_neg, abs_of_nonneg h6, abs_of_nonpos (max_le ha.le hb.le), le_div_iff₀ h3]
        rcases le_total a b with hab | hab
        · rw [max_eq_right hab]; nlinarith
        · rw [max_eq_left hab]; nlinarith
  · generalize qM - qL = a at *; generalize qR - qM = b at *
    intro h
    have ha0 : a ≠ 0 := by rintro rfl; simp at h
    have hb0 : b ≠ 0 := by rintro rfl; simp at h
    refine ⟨?_, ?_⟩
    · rcases lt_or_ge 0 a with ha | ha
      · have hb : 0 < b := by by_contra hb; exact absurd h (not_lt.2 (mul_nonpos_of_nonneg_of_nonpos ha.le (not_lt.1 hb)))
        rw [mp ha hb, abs_of_nonneg (le_min ha.le hb.le), abs_of_pos ha, abs_of_pos hb]
      · have ha : a < 0 := lt_of_le_of_ne ha ha0
        have hb : b < 0 := by by_contra hb; exact absurd h (not_lt.2 (mul_nonpos_of_nonpos_of_nonneg ha.le (not_lt.1 hb)))
        rw [mn ha hb, abs_of_nonpos (max_le ha.le hb.le), abs_of_neg ha, abs_of_neg hb, min_neg_neg']
    · rw [vp h]
      have hab : a + b ≠ 0 := by
        intro h0
        have : b = -a := by linarith
        rw [this] at h; nlinarith [mul_self_nonneg a]
      field_simp
      ring
  · generalize qM - qL = a at *; generalize qR - qM = b at *
    refine ⟨?_, ?_⟩
    · rcases le_or_gt (a * b) 0 with h | h
      · rw [mz h, mz' (by linarith [neg_mul_neg b a, mul_comm a b]), neg_zero]
      · rcases lt_or_ge 0 a with ha | ha
        · have hb : 0 < b := by by_contra hb; exact absurd h (not_lt.2 (mul_nonpos_of_nonneg_of_nonpos ha.le (not_lt.1 hb)))
          rw [mp ha hb, mn' (by linarith) (by linarith), max_neg_neg', min_comm]
        · have ha : a < 0 := lt_of_le_of_ne ha (by rintro rfl; simp at h)
          have hb : b < 0 := by by_contra hb; exact absurd h (not_lt.2 (mul_nonpos_of_nonpos_of_nonneg ha.le (not_lt.1 hb)))
          rw [mn ha hb, mp' (by linarith) (by linarith), min_neg_neg', max_comm]
    · rcases le_or_gt (a * b) 0 with h | h
      · rw [vz h, vz' (by linarith [neg_mul_neg b a, mul_comm a b]), neg_zero]
      · rw [vp h, vp' (by linarith [neg_mul_neg b a, mul_comm a b])]
        have : -b + -a = -(a + b) := by ring
        rw [this, div_neg]; congr 2; ring
  · generalize qM - qL = a at *; generalize qR - qM = b at *
    refine ⟨?_, ?_⟩
    · rcases le_or_gt (a * b) 0 with h | h
      · rw [mz h, nz (by rwa [neg_mul_neg]), neg_zero]
      · rcases lt_or_ge 0 a with ha | ha
        · have hb : 0 < b := by by_contra hb; exact absurd h (not_lt.2 (mul_nonpos_of_nonneg_of_nonpos ha.le (not_lt.1 hb)))
          rw [mp ha hb, nn (by linarith) (by linarith), max_neg_neg']
        · have ha : a < 0 := lt_of_le_of_ne ha (by rintro rfl; simp at h)
          have hb : b < 0 := by by_contra hb; exact absurd h (not_lt.2 (mul_nonpos_of_nonpos_of_nonneg ha.le (not_lt.1 hb)))
          rw [mn ha hb, np (by linarith) (by linarith), min_neg_neg']
    · rcases le_or_gt (a * b) 0 with h | h
      · rw [vz h, wz (by rwa [neg_mul_neg]), neg_zero]
      · rw [vp h, wp (by rwa [neg_mul_neg])]
        have : -a + -b = -(a + b) := by ring
        rw [this, div_neg]; congr 2; ring
  · refine ⟨rfl, fun mask => ?_, fun mask => ?_⟩
    · cases mask <;> simp [minModSlopeMasked, minModSlope]
    · cases mask <;> simp [vanLeerSlopeMasked, vanLeerArray, vanLeer]

/-- **C28 (gradients).** The limited gradient built from `MinModLimiter` is the minmod and the one built from
`VanLeerLimiter` the van-Leer (harmonic) mean of the two one-sided slopes: the two families of limiters in the code base
agree. The upwind limiter gives zero, no limiter the central difference, except that it is cut off at extrema. Scalar and
array versions agree for every limiter function. -/
theorem gradient_limiters (sL sR : K) :
    centralGradient minModLimiter sL sR = minModSlope 0 sL (sL + sR) ∧
    centralGradient vanLeerLimiter sL sR = vanLeer sL sR ∧
    centralGradient upwindLimiter sL sR = 0 ∧
    centralGradient noLimiter2 sL sR = (if 0 < sL * sR then noLimiterSlope 0 sL (sL + sR) else 0) ∧
    (∀ limiter : K → K, centralGradientArray limiter sL sR = centralGradient limiter sL sR) := by
  obtain ⟨mp, mn, mz⟩ := minModSlope_cases 0 sL (sL + sR)
  obtain ⟨vp, vz⟩ := vanLeer_cases sL sR
  have ea : sL - 0 = sL := sub_zero _
  have eb : sL + sR - sL = sR := by ring
  rw [ea, eb] at mp mn mz
  refine ⟨?_, ?_, ?_, ?_, ?_⟩
  · rcases le_or_gt (sL * sR) 0 with h | h
    · rw [mz h]; simp [centralGradient, h]
    · simp only [centralGradient, if_neg (not_le.2 h), minModLimiter]
      rcases lt_or_ge 0 sL with ha | ha
      · have hb : 0 < sR := by by_contra hb; exact absurd h (not_lt.2 (mul_nonpos_of_nonneg_of_nonpos ha.le (not_lt.1 hb)))
        rw [mp ha hb]
        have h1 : 2 / (1 + sR / sL) = 2 * sL / (sL + sR) := by field_simp
        have h2 : sR / sL * (2 / (1 + sR / sL)) = 2 * sR / (sL + sR) := by field_simp
        rw [h2, h1]
        have h3 : 0 < sL + sR := by linarith
        rcases le_total sL sR with hab | hab
        · rw [min_eq_left (div_le_div_of_nonneg_right (by linarith) h3.le), min_eq_left hab]; field_simp
        · rw [min_eq_right (div_le_div_of_nonneg_right (by linarith) h3.le), min_eq_right hab]; field_simp
      · have ha : sL < 0 := lt_of_le_of_ne ha (by rintro rfl; simp at h)
        have hb : sR < 0 := by by_contra hb; exact absurd h (not_lt.2 (mul_nonpos_of_nonpos_of_nonneg ha.le (not_lt.1 hb)))
        rw [mn ha hb]
        have h3 : 0 < -(sL + sR) := by linarith
        have h4 : sL + sR ≠ 0 := by linarith
        have ha0 := ha.ne
        have h1 : 2 / (1 + sR / sL) = 2 * (-sL) / -(sL + sR) := by field_simp
        have h2 : sR / sL * (2 / (1 + sR / sL)) = 2 * (-sR) / -(sL + sR) := by field_simp
        rw [h2, h1]
        rcases le_total sL sR with hab | hab
        · rw [min_eq_right (div_le_div_of_nonneg_right (by linarith) h3.le), max_eq_right hab]; field_simp
        · rw [min_eq_left (div_le_div_of_nonneg_right (by linarith) h3.le), max_eq_left hab]; field_simp
  · rcases le_or_gt (sL * sR) 0 with h | h
    · rw [vz h]; simp [centralGradient, h]
    · simp only [centralGradient, if_neg (not_le.2 h), vanLeerLimiter, vp h]
      have ha0 : sL ≠ 0 := by rintro rfl; simp at h
      have hab : sL + sR ≠ 0 := by
        intro h0
        have : sR = -sL := by linarith
        rw [this] at h; nlinarith [mul_self_nonneg sL]
      have h1 : 1 + sR / sL = (sL + sR) / sL := by field_simp
      rw [h1]; field_simp; ring
  · simp [centralGradient, upwindLimiter]
  · rcases le_or_gt (sL * sR) 0 with h | h
    · rw [if_neg (not_lt.2 h)]; simp [centralGradient, h]
    · rw [if_pos h]; simp only [centralGradient, if_neg (not_le.2 h), noLimiter2, noLimiterSlope]; ring
  · intro limiter
    rcases le_or_gt (sL * sR) 0 with h | h
    · simp [centralGradient, centralGradientArray, h]
    · simp [centralGradient, centralGradientArray, h, not_lt.2 h.le]

/-- **C28 (reconstruction stays in range).** A limited linear reconstruction (factor up to 2) takes values at both cell
faces that lie between the cell's own value and the respective neighbour's value. In particular MinMod and VanLeer create no new extrema. -/
theorem reconstruction_in_range (qL qM qR σ : K) (h : LimitedSlope 2 (qM - qL) (qR - qM) σ) :
    (min qL qM ≤ qM - 1 / 2 * σ ∧ qM - 1 / 2 * σ ≤ max qL qM) ∧
    (min qM qR ≤ qM + 1 / 2 * σ ∧ qM + 1 / 2 * σ ≤ max qM qR) := by
  obtain ⟨h1, h2, h3⟩ := h
  have hz : σ = 0 → (min qL qM ≤ qM - 1 / 2 * σ ∧ qM - 1 / 2 * σ ≤ max qL qM) ∧
      (min qM qR ≤ qM + 1 / 2 * σ ∧ qM + 1 / 2 * σ ≤ max qM qR) := by
    rintro rfl; simp
  rcases lt_trichotomy (qM - qL) 0 with ha | ha | ha
  · rcases lt_or_ge (qR - qM) 0 with hb | hb
    · obtain ⟨k1, k2, k3⟩ := h2 ha hb
      rw [min_eq_right (by linarith), max_eq_left (by linarith), min_eq_right (by linarith), max_eq_left (by linarith)]
      refine ⟨⟨?_, ?_⟩, ?_, ?_⟩ <;> linarith
    · exact hz (h3 (mul_nonpos_of_nonpos_of_nonneg ha.le hb))
  · exact hz (h3 (by rw [ha, zero_mul]))
  · rcases lt_or_ge 0 (qR - qM) with hb | hb
    · obtain ⟨k1, k2, k3⟩ := h1 ha hb
      rw [min_eq_left (by linarith), max_eq_right (by linarith), min_eq_left (by linarith), max_eq_right (by linarith)]
      refine ⟨⟨?_, ?_⟩, ?_, ?_⟩ <;> linarith
    · exact hz (h3 (mul_nonpos_of_nonneg_of_nonpos ha.le hb))

/-- The hypothesis is met by VanLeer on a steep monotone stencil; the unlimited central slope on the same stencil violates it. -/
example : LimitedSlope (2 : ℚ) (1 - 0) (11 - 1) (vanLeerSlope 0 1 11) ∧ ¬ LimitedSlope (2 : ℚ) (1 - 0) (11 - 1) (noLimiterSlope 0 1 11) := by
  refine ⟨(muscl_limiters 0 1 11).2.1, fun h => ?_⟩
  have := (h.1 (by norm_num) (by norm_num)).2.1
  norm_num [noLimiterSlope] at this

/-- **C28 is false for `NoLimiter`.** The class `NoLimiter` is offered as a limiter too, and it creates new
extrema: the reconstructed value leaves the range of the neighbours. -/
theorem noLimiter_overshoots : ∃ qL qM qR : ℚ, qM - 1 / 2 * noLimiterSlope qL qM qR < min qL (min qM qR) :=
  ⟨0, 1, 11, by norm_num [noLimiterSlope]⟩

end Fub
