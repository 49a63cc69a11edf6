import Verif.Model.GasExact
import Mathlib.Analysis.SpecialFunctions.Pow.Deriv
import Mathlib.Analysis.SpecialFunctions.Sqrt
import Mathlib.Analysis.Calculus.Deriv.MeanValue
import Mathlib.Tactic.LinearCombination

/-! The wave function of the exact Riemann solver for the perfect gas: derivative, monotonicity, limits. -/

namespace Fub
open Set

/-- What the wave function needs to know about its state. -/
structure WaveData (g rho p a : ℝ) : Prop where
  g1 : 1 < g
  rho0 : 0 < rho
  p0 : 0 < p
  a0 : 0 < a
  sq : a ^ 2 * rho = g * p

variable {g rho p a x : ℝ}

theorem WaveData.shock_root (h : WaveData g rho p a) (hx : 0 ≤ x) :
    0 < 2 / ((g + 1) * rho) / (x + (g - 1) / (g + 1) * p) := by
  have := h.g1; have := h.rho0; have := h.p0
  have h1 : 0 < (g - 1) / (g + 1) * p := mul_pos (div_pos (by linarith) (by linarith)) h.p0
  have h2 : 0 < g + 1 := by linarith
  have h3 : 0 < x + (g - 1) / (g + 1) * p := by linarith
  positivity

theorem gasWave_self (h : WaveData g rho p a) : gasWave g rho p a p = 0 := by
  rw [gasWave, if_neg (lt_irrefl _), div_self h.p0.ne']; simp

theorem gasWaveD_self (h : WaveData g rho p a) : gasWaveD g rho p a p = 1 / (rho * a) := by
  rw [gasWaveD, if_neg (lt_irrefl _), div_self h.p0.ne']; simp

theorem gas_sqrt_self (h : WaveData g rho p a) :
    Real.sqrt (2 / ((g + 1) * rho) / ((g - 1) / (g + 1) * p + p)) = 1 / (rho * a) := by
  have h1 : 0 < g + 1 := by linarith [h.g1]
  have := h.rho0; have := h.a0; have := h.p0
  have hg : 0 < g := by linarith [h.g1]
  have e : 2 / ((g + 1) * rho) / ((g - 1) / (g + 1) * p + p) = (1 / (rho * a)) ^ 2 := by
    have : (g - 1) / (g + 1) * p + p = 2 * (g * p) / (g + 1) := by field_simp; ring
    rw [this, ← h.sq]
    field_simp
  rw [e, Real.sqrt_sq (by positivity)]

/-- The derivative used by the solver is the derivative of the wave function. -/
theorem gasWave_deriv (h : WaveData g rho p a) (hx : 0 < x) : HasDerivAt (gasWave g rho p a) (gasWaveD g rho p a x) x := by
  have hg : 0 < g := by linarith [h.g1]
  have hgm : g - 1 ≠ 0 := by linarith [h.g1]
  have hgp : 0 < g + 1 := by linarith
  have hr := h.rho0; have ha := h.a0; have hp := h.p0
  have hA : ∀ x, 0 < x → HasDerivAt (fun x => 2 * a / (g - 1) * ((x / p) ^ (1 / 2 * (g - 1) / g) - 1)) ((x / p) ^ (-(1 / 2) * (g + 1) / g) / (rho * a)) x := by
    intro x hx
    have h1 : HasDerivAt (fun x : ℝ => x / p) (1 / p) x := (hasDerivAt_id x).div_const p
    have h2 := h1.rpow_const (p := 1 / 2 * (g - 1) / g) (Or.inl (div_pos hx hp).ne')
    have h3 := (h2.sub_const 1).const_mul (2 * a / (g - 1))
    refine h3.congr_deriv ?_
    have e : 1 / 2 * (g - 1) / g - 1 = -(1 / 2) * (g + 1) / g := by field_simp; ring
    rw [e]
    have : a * a * rho = g * p := by rw [← h.sq]; ring
    field_simp
    linear_combination this
  have hB : ∀ x, 0 < x → HasDerivAt (fun x => (x - p) * Real.sqrt (2 / ((g + 1) * rho) / (x + (g - 1) / (g + 1) * p)))
      (Real.sqrt (2 / ((g + 1) * rho) / ((g - 1) / (g + 1) * p + x)) * (1 - 1 / 2 * (x - p) / ((g - 1) / (g + 1) * p + x))) x := by
    intro x hx
    have hpos := h.shock_root hx.le
    have hB0 : 0 < (g - 1) / (g + 1) * p := mul_pos (div_pos (by linarith [h.g1]) hgp) hp
    generalize (g - 1) / (g + 1) * p = B at *
    generalize hAA : 2 / ((g + 1) * rho) = A at *
    have h0 : x + B ≠ 0 := by linarith
    have h1 : HasDerivAt (fun x : ℝ => A / (x + B)) (A * (-1 / (x + B) ^ 2)) x := by
      have := (((hasDerivAt_id x).add_const B).inv h0).const_mul A
      simpa [div_eq_mul_inv] using this
    have h2 := h1.sqrt hpos.ne'
    have h3 := ((hasDerivAt_id x).sub_const p).mul h2
    refine h3.congr_deriv ?_
    have hs := Real.sqrt_pos.2 hpos
    have hsq := Real.mul_self_sqrt hpos.le
    rw [add_comm B x]
    generalize Real.sqrt (A / (x + B)) = s at hs hsq
    simp only [id_eq]
    have hA' : A = s * s * (x + B) := by rw [hsq]; field_simp
    rw [hA']
    field_simp
    ring
  rcases lt_trichotomy x p with hlt | rfl | hgt
  · have e : gasWave g rho p a =ᶠ[nhds x] fun x => 2 * a / (g - 1) * ((x / p) ^ (1 / 2 * (g - 1) / g) - 1) := by
      filter_upwards [Iio_mem_nhds hlt] with y hy using if_neg (not_lt.2 (le_of_lt hy))
    rw [gasWaveD, if_neg (not_lt.2 hlt.le)]
    exact (hA x hx).congr_of_eventuallyEq e
  · have e1 : HasDerivWithinAt (gasWave g rho x a) (1 / (rho * a)) (Iic x) x := by
      have := ((hA x hx).congr_deriv (g' := 1 / (rho * a)) (by rw [div_self hx.ne']; simp)).hasDerivWithinAt (s := Iic x)
      exact this.congr (fun y hy => if_neg (not_lt.2 hy)) (if_neg (lt_irrefl _))
    have e2 : HasDerivWithinAt (gasWave g rho x a) (1 / (rho * a)) (Ici x) x := by
      have := ((hB x hx).congr_deriv (g' := 1 / (rho * a)) (by rw [gas_sqrt_self h]; simp)).hasDerivWithinAt (s := Ici x)
      refine this.congr (fun y hy => ?_) (by rw [gasWave_self h]; simp)
      rcases (show x ≤ y from hy).eq_or_lt with rfl | hy
      · rw [gasWave_self h]; simp
      · exact if_pos hy
    have e3 := e1.union e2
    rw [Iic_union_Ici, hasDerivWithinAt_univ] at e3
    exact e3.congr_deriv (gasWaveD_self h).symm
  · have e : gasWave g rho p a =ᶠ[nhds x] fun x => (x - p) * Real.sqrt (2 / ((g + 1) * rho) / (x + (g - 1) / (g + 1) * p)) := by
      filter_upwards [Ioi_mem_nhds hgt] with y hy using if_pos hy
    rw [gasWaveD, if_pos hgt]
    exact (hB x hx).congr_of_eventuallyEq e

theorem gasWaveD_shock (h : WaveData g rho p a) (hx : p ≤ x) : gasWaveD g rho p a x =
    Real.sqrt (2 / ((g + 1) * rho) / ((g - 1) / (g + 1) * p + x)) * (1 / 2 * (1 + ((g - 1) / (g + 1) * p + p) / ((g - 1) / (g + 1) * p + x))) := by
  have hB0 : 0 < (g - 1) / (g + 1) * p := mul_pos (div_pos (by linarith [h.g1]) (by linarith [h.g1])) h.p0
  have hp := h.p0
  rcases hx.eq_or_lt with rfl | hx
  · rw [gasWaveD_self h, gas_sqrt_self h, div_self (by linarith)]; ring
  · rw [gasWaveD, if_pos hx]
    congr 1
    have : (g - 1) / (g + 1) * p + x ≠ 0 := by linarith
    generalize (g - 1) / (g + 1) * p = B at *
    field_simp
    ring

theorem gasWaveD_pos (h : WaveData g rho p a) (hx : 0 < x) : 0 < gasWaveD g rho p a x := by
  have hp := h.p0; have := h.rho0; have := h.a0
  rcases le_or_gt p x with hc | hc
  · rw [gasWaveD_shock h hc]
    have hB0 : 0 < (g - 1) / (g + 1) * p := mul_pos (div_pos (by linarith [h.g1]) (by linarith [h.g1])) h.p0
    have := h.shock_root hx.le
    rw [add_comm x] at this
    exact mul_pos (Real.sqrt_pos.2 this) (by positivity)
  · rw [gasWaveD, if_neg (not_lt.2 hc.le)]
    have := Real.rpow_pos_of_pos (div_pos hx hp) (-(1 / 2) * (g + 1) / g)
    positivity

theorem gasWaveD_anti (h : WaveData g rho p a) {y : ℝ} (hx : 0 < x) (hxy : x ≤ y) : gasWaveD g rho p a y ≤ gasWaveD g rho p a x := by
  have hp := h.p0; have hr := h.rho0; have ha := h.a0; have hg := h.g1
  have hB0 : 0 < (g - 1) / (g + 1) * p := mul_pos (div_pos (by linarith [h.g1]) (by linarith [h.g1])) h.p0
  have shock : ∀ x y, p ≤ x → x ≤ y → gasWaveD g rho p a y ≤ gasWaveD g rho p a x := by
    intro x y hx hxy
    rw [gasWaveD_shock h hx, gasWaveD_shock h (hx.trans hxy)]
    generalize (g - 1) / (g + 1) * p = B at *
    have b1 : 0 < B + x := by linarith
    have b2 : 0 < B + y := by linarith
    have hA : 0 < 2 / ((g + 1) * rho) := div_pos two_pos (mul_pos (by linarith) hr)
    refine mul_le_mul (Real.sqrt_le_sqrt (div_le_div_of_nonneg_left hA.le b1 (by linarith))) ?_ ?_ (Real.sqrt_nonneg _)
    · have := div_le_div_of_nonneg_left (show 0 ≤ B + p by linarith) b1 (show B + x ≤ B + y by linarith)
      linarith
    · have : 0 ≤ (B + p) / (B + y) := div_nonneg (by linarith) b2.le
      linarith
  have rar : ∀ x y, 0 < x → x ≤ y → y ≤ p → gasWaveD g rho p a y ≤ gasWaveD g rho p a x := by
    intro x y hx hxy hy
    rw [gasWaveD, if_neg (not_lt.2 hy), gasWaveD, if_neg (not_lt.2 (hxy.trans hy))]
    refine div_le_div_of_nonneg_right ?_ (by positivity)
    refine Real.rpow_le_rpow_of_nonpos (div_pos hx hp) (div_le_div_of_nonneg_right hxy hp.le) ?_
    have : 0 < (g + 1) / g := div_pos (by linarith) (by linarith)
    have e : -(1 / 2) * (g + 1) / g = -(1 / 2) * ((g + 1) / g) := by ring
    rw [e]; linarith
  rcases le_or_gt p x with hc | hc
  · exact shock x y hc hxy
  · rcases le_or_gt y p with hc' | hc'
    · exact rar x y hx hxy hc'
    · exact (shock p y le_rfl hc'.le).trans (rar x p hx hc.le le_rfl)

theorem gasWave_zero (h : WaveData g rho p a) : gasWave g rho p a 0 = -(2 * a / (g - 1)) := by
  have hg := h.g1
  rw [gasWave, if_neg (not_lt.2 h.p0.le), zero_div, Real.zero_rpow]
  · ring
  · exact (div_pos (mul_pos (by norm_num) (by linarith)) (by linarith)).ne'

theorem gasWave_lower (h : WaveData g rho p a) (hx : 0 ≤ x) : -(2 * a / (g - 1)) ≤ gasWave g rho p a x := by
  have hg := h.g1
  have h1 : 0 < 2 * a / (g - 1) := div_pos (by linarith [h.a0]) (by linarith)
  rw [gasWave]
  split
  · rename_i hc
    have := mul_nonneg (sub_nonneg.2 hc.le) (Real.sqrt_nonneg (2 / ((g + 1) * rho) / (x + (g - 1) / (g + 1) * p)))
    linarith
  · have := Real.rpow_nonneg (div_nonneg hx h.p0.le) (1 / 2 * (g - 1) / g)
    nlinarith

/-- The wave function is unbounded. -/
theorem gasWave_large (h : WaveData g rho p a) (c b : ℝ) : ∃ x, b < x ∧ ∀ y, x ≤ y → c < gasWave g rho p a y := by
  have hp := h.p0; have hr := h.rho0; have hg := h.g1
  have hB0 : 0 < (g - 1) / (g + 1) * p := mul_pos (div_pos (by linarith [h.g1]) (by linarith [h.g1])) h.p0
  have hA : 0 < 2 / ((g + 1) * rho) := div_pos two_pos (mul_pos (by linarith) hr)
  refine ⟨|b| + 2 * p + (g - 1) / (g + 1) * p + 8 * (|c| + 1) ^ 2 / (2 / ((g + 1) * rho)), ?_, fun y hy => ?_⟩
  · have := le_abs_self b
    have : 0 < 8 * (|c| + 1) ^ 2 / (2 / ((g + 1) * rho)) := by positivity
    linarith
  · have hb := abs_nonneg b
    have h8 : 0 < 8 * (|c| + 1) ^ 2 / (2 / ((g + 1) * rho)) := by positivity
    have hpy : p < y := by linarith
    rw [gasWave, if_pos hpy]
    generalize (g - 1) / (g + 1) * p = B at *
    generalize 2 / ((g + 1) * rho) = A at *
    have hy8 : 8 * (|c| + 1) ^ 2 / A ≤ y := by linarith
    rw [div_le_iff₀ hA] at hy8
    have y0 : 0 < y := by linarith
    have r1 : A / (2 * y) ≤ A / (y + B) := div_le_div_of_nonneg_left hA.le (by linarith) (by linarith)
    have r2 : (|c| + 1) ≤ y / 2 * Real.sqrt (A / (2 * y)) := by
      have e : y / 2 * Real.sqrt (A / (2 * y)) = Real.sqrt ((y / 2) ^ 2 * (A / (2 * y))) := by
        rw [Real.sqrt_mul (by positivity), Real.sqrt_sq (by positivity)]
      rw [e]
      apply Real.le_sqrt_of_sq_le
      have : (y / 2) ^ 2 * (A / (2 * y)) = y * A / 8 := by field_simp; ring
      rw [this]; linarith
    have r3 : y / 2 * Real.sqrt (A / (2 * y)) ≤ (y - p) * Real.sqrt (A / (y + B)) :=
      mul_le_mul (by linarith) (Real.sqrt_le_sqrt r1) (Real.sqrt_nonneg _) (by linarith)
    have := le_abs_self c
    linarith

theorem gasWave_strictMono (h : WaveData g rho p a) : StrictMonoOn (gasWave g rho p a) (Ici 0) := by
  have key : StrictMonoOn (gasWave g rho p a) (Ioi 0) := by
    refine strictMonoOn_of_deriv_pos (convex_Ioi 0) (fun x hx => (gasWave_deriv h hx).continuousAt.continuousWithinAt) fun x hx => ?_
    rw [interior_Ioi] at hx
    rw [(gasWave_deriv h hx).deriv]
    exact gasWaveD_pos h hx
  have hz : ∀ y, 0 < y → gasWave g rho p a 0 < gasWave g rho p a y := by
    intro y hy
    have := key (show (0 : ℝ) < y / 2 by linarith) hy (by linarith)
    exact lt_of_le_of_lt (by rw [gasWave_zero h]; exact gasWave_lower h (by linarith)) this
  intro x hx y hy hxy
  rcases (show (0 : ℝ) ≤ x from hx).eq_or_lt with rfl | hx
  · exact hz y hxy
  · exact key hx (hx.trans hxy) hxy

end Fub
