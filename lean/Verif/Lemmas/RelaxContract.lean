import Mathlib.LinearAlgebra.FiniteDimensional.Basic
import Mathlib.LinearAlgebra.BilinearMap
import Mathlib.Analysis.Normed.Module.FiniteDimension
import Mathlib.Topology.Order.Compact
import Mathlib.Analysis.Normed.Operator.BoundedLinearMaps
import Mathlib.Analysis.SpecialFunctions.Pow.Real

/-!
Relaxation of a symmetric positive definite system: a linear map that strictly lowers the energy of every nonzero vector contracts geometrically.
-/

namespace Fub

section Abstract
variable {ι : Type} [Fintype ι]

/-- On a finite dimensional space a positive quadratic form is bounded below by the norm. -/
theorem energy_lower (B : (ι → ℝ) →ₗ[ℝ] (ι → ℝ) →ₗ[ℝ] ℝ) (hB : ∀ v, v ≠ 0 → 0 < B v v) :
    ∃ m : ℝ, 0 < m ∧ ∀ v, m * ‖v‖ ^ 2 ≤ B v v := by
  have hcont : Continuous fun v : ι → ℝ => B v v := by
    have h : ∀ v : ι → ℝ, B v v = (LinearMap.toContinuousLinearMap (B v)) v := fun _ => rfl
    have h2 : Continuous fun v : ι → ℝ => (LinearMap.toContinuousLinearMap (B v)) :=
      ((LinearMap.toContinuousLinearMap (𝕜 := ℝ) (E := ι → ℝ) (F' := ℝ)).toLinearMap.comp B).continuous_of_finiteDimensional
    exact h2.clm_apply continuous_id
  rcases (Metric.sphere (0 : ι → ℝ) 1).eq_empty_or_nonempty with he | hne
  · refine ⟨1, one_pos, fun v => ?_⟩
    by_cases hv : v = 0
    · subst hv; simp
    · exfalso
      have : (‖v‖⁻¹ • v) ∈ Metric.sphere (0 : ι → ℝ) 1 := by
        rw [mem_sphere_zero_iff_norm, norm_smul, norm_inv, norm_norm, inv_mul_cancel₀ (norm_ne_zero_iff.2 hv)]
      rw [he] at this; exact this
  · obtain ⟨w, hw, hmin⟩ := (isCompact_sphere (0 : ι → ℝ) 1).exists_isMinOn hne hcont.continuousOn
    have hw0 : w ≠ 0 := by
      rintro rfl; rw [mem_sphere_zero_iff_norm, norm_zero] at hw; exact zero_ne_one hw
    refine ⟨B w w, hB w hw0, fun v => ?_⟩
    by_cases hv : v = 0
    · subst hv; simp
    · have hn : 0 < ‖v‖ := norm_pos_iff.2 hv
      have hs : (‖v‖⁻¹ • v) ∈ Metric.sphere (0 : ι → ℝ) 1 := by
        rw [mem_sphere_zero_iff_norm, norm_smul, norm_inv, norm_norm, inv_mul_cancel₀ hn.ne']
      have := hmin hs
      simp only [Set.mem_ofPred_eq, map_smul, LinearMap.smul_apply, smul_eq_mul] at this
      have e : B v v = ‖v‖ ^ 2 * (‖v‖⁻¹ * (‖v‖⁻¹ * B v v)) := by field_simp
      rw [e, mul_comm]
      exact mul_le_mul_of_nonneg_left this (by positivity)

/-- A linear map that strictly lowers the energy of every nonzero vector lowers it by a fixed factor. -/
theorem energy_ratio (B : (ι → ℝ) →ₗ[ℝ] (ι → ℝ) →ₗ[ℝ] ℝ) (hB : ∀ v, v ≠ 0 → 0 < B v v) (M : (ι → ℝ) →ₗ[ℝ] (ι → ℝ))
    (hM : ∀ v, v ≠ 0 → B (M v) (M v) < B v v) :
    ∃ r : ℝ, 0 ≤ r ∧ r < 1 ∧ ∀ v, B (M v) (M v) ≤ r * B v v := by
  have hcont : Continuous fun v : ι → ℝ => B v v := by
    have h : ∀ v : ι → ℝ, B v v = (LinearMap.toContinuousLinearMap (B v)) v := fun _ => rfl
    have h2 : Continuous fun v : ι → ℝ => (LinearMap.toContinuousLinearMap (B v)) :=
      ((LinearMap.toContinuousLinearMap (𝕜 := ℝ) (E := ι → ℝ) (F' := ℝ)).toLinearMap.comp B).continuous_of_finiteDimensional
    exact h2.clm_apply continuous_id
  have hMc : Continuous M := M.continuous_of_finiteDimensional
  have hnn : ∀ v, 0 ≤ B v v := fun v => by
    by_cases hv : v = 0
    · subst hv; simp
    · exact (hB v hv).le
  rcases (Metric.sphere (0 : ι → ℝ) 1).eq_empty_or_nonempty with he | hne
  · refine ⟨0, le_rfl, one_pos, fun v => ?_⟩
    by_cases hv : v = 0
    · subst hv; simp
    · exfalso
      have : (‖v‖⁻¹ • v) ∈ Metric.sphere (0 : ι → ℝ) 1 := by
        rw [mem_sphere_zero_iff_norm, norm_smul, norm_inv, norm_norm, inv_mul_cancel₀ (norm_ne_zero_iff.2 hv)]
      rw [he] at this; exact this
  · have hs0 : ∀ w ∈ Metric.sphere (0 : ι → ℝ) 1, w ≠ 0 := by
      rintro w hw rfl; rw [mem_sphere_zero_iff_norm, norm_zero] at hw; exact zero_ne_one hw
    have hc2 : ContinuousOn (fun v => B (M v) (M v) / B v v) (Metric.sphere (0 : ι → ℝ) 1) :=
      (hcont.comp hMc).continuousOn.div hcont.continuousOn fun w hw => (hB w (hs0 w hw)).ne'
    obtain ⟨w, hw, hmax⟩ := (isCompact_sphere (0 : ι → ℝ) 1).exists_isMaxOn hne hc2
    refine ⟨B (M w) (M w) / B w w, div_nonneg (hnn _) (hnn _), (div_lt_one (hB w (hs0 w hw))).2 (hM w (hs0 w hw)), fun v => ?_⟩
    by_cases hv : v = 0
    · subst hv; simp
    · have hn : 0 < ‖v‖ := norm_pos_iff.2 hv
      have hs : (‖v‖⁻¹ • v) ∈ Metric.sphere (0 : ι → ℝ) 1 := by
        rw [mem_sphere_zero_iff_norm, norm_smul, norm_inv, norm_norm, inv_mul_cancel₀ hn.ne']
      have h := hmax hs
      simp only [Set.mem_ofPred_eq, map_smul, LinearMap.smul_apply, smul_eq_mul] at h
      have e : ‖v‖⁻¹ * (‖v‖⁻¹ * B (M v) (M v)) / (‖v‖⁻¹ * (‖v‖⁻¹ * B v v)) = B (M v) (M v) / B v v := by
        have := (hB v hv).ne'
        field_simp
      rw [e] at h
      exact (div_le_iff₀ (hB v hv)).1 h

/-- Repeating such a map converges geometrically to zero. -/
theorem energy_geometric (B : (ι → ℝ) →ₗ[ℝ] (ι → ℝ) →ₗ[ℝ] ℝ) (hB : ∀ v, v ≠ 0 → 0 < B v v) (M : (ι → ℝ) →ₗ[ℝ] (ι → ℝ))
    (hM : ∀ v, v ≠ 0 → B (M v) (M v) < B v v) :
    ∃ q : ℝ, 0 ≤ q ∧ q < 1 ∧ ∀ v, ∃ C : ℝ, ∀ k p, |(M^[k] v) p| ≤ C * q ^ k := by
  obtain ⟨m, hm, hlow⟩ := energy_lower B hB
  obtain ⟨r, hr0, hr1, hrat⟩ := energy_ratio B hB M hM
  refine ⟨Real.sqrt r, Real.sqrt_nonneg _, by rw [Real.sqrt_lt' one_pos]; simpa using hr1, fun v => ⟨Real.sqrt (B v v / m), fun k p => ?_⟩⟩
  have hk : ∀ k, B (M^[k] v) (M^[k] v) ≤ r ^ k * B v v := by
    intro k
    induction k with
    | zero => simp
    | succ k ih =>
      rw [Function.iterate_succ_apply', pow_succ]
      calc _ ≤ r * B (M^[k] v) (M^[k] v) := hrat _
        _ ≤ r * (r ^ k * B v v) := mul_le_mul_of_nonneg_left ih hr0
        _ = _ := by ring
  have hvv : 0 ≤ B v v := by
    by_cases hv : v = 0
    · subst hv; simp
    · exact (hB v hv).le
  have h1 : |(M^[k] v) p| ≤ ‖M^[k] v‖ := by rw [← Real.norm_eq_abs]; exact norm_le_pi_norm _ p
  refine h1.trans ?_
  have h2 : ‖M^[k] v‖ ^ 2 ≤ (Real.sqrt (B v v / m) * Real.sqrt r ^ k) ^ 2 := by
    rw [mul_pow, Real.sq_sqrt (div_nonneg hvv hm.le), ← pow_mul, mul_comm k 2, pow_mul, Real.sq_sqrt hr0, div_mul_eq_mul_div, le_div_iff₀ hm]
    have a := hlow (M^[k] v); have b := hk k
    nlinarith
  exact (pow_le_pow_iff_left₀ (norm_nonneg _) (by positivity) two_ne_zero).1 h2

end Abstract

end Fub
