import Verif.Spec.ShallowWater
import Verif.Lemmas.NewtonConcave
import Verif.Props.GasHll
import Mathlib.Analysis.SpecialFunctions.Sqrt
import Mathlib.Analysis.Calculus.Deriv.Inv
import Mathlib.Analysis.Calculus.Deriv.MeanValue
import Mathlib.Data.Fin.VecNotation
import Mathlib.Tactic.FinCases
import Mathlib.Tactic.LinearCombination

/-! C34, C52, C53: shallow water flux, exact Riemann solver and HLL. -/

namespace Fub
open Set

/-! ### C34: the flux -/

/-- **C34 (partial).** The coded flux of a state with nonzero height is the flux of the shallow water equations exactly if the
momentum in that direction vanishes or the height is one; its height component is always right.
Missing: all other states, see `sw_flux_false`. -/
theorem sw_flux_partial (g : ℝ) (q : SwState) (dir : Fin 2) (h : q.height ≠ 0) :
    ((swFlux g q dir).get = swPhysFlux g q dir ↔ q.momentum dir = 0 ∨ q.height = 1) ∧
    (swFlux g q dir).get .height = swPhysFlux g q dir .height := by
  have hh : (swFlux g q dir).get .height = swPhysFlux g q dir .height := by
    show q.momentum dir = q.height * (q.momentum dir / q.height)
    field_simp
  have hmom : ∀ i, (swFlux g q dir).get (.momentum i) - swPhysFlux g q dir (.momentum i) = q.momentum i * q.momentum dir * (1 - 1 / q.height) := by
    intro i
    show q.momentum dir * q.momentum i + (if i = dir then 1 / 2 * g * q.height * q.height else 0) -
      (q.momentum i * (q.momentum dir / q.height) + if i = dir then g * q.height ^ 2 / 2 else 0) = _
    split <;> field_simp <;> ring
  refine ⟨⟨fun he => ?_, fun he => ?_⟩, hh⟩
  · have := hmom dir
    rw [he, sub_self] at this
    rcases mul_eq_zero.1 this.symm with h1 | h1
    · left; exact mul_self_eq_zero.1 h1
    · right
      field_simp at h1
      linarith
  · funext v
    cases v with
    | height => exact hh
    | momentum i =>
      rw [← sub_eq_zero, hmom i]
      rcases he with he | he
      · simp [he]
      · simp [he]

/-- **C34 fails**: water of height two moving with velocity one. -/
theorem sw_flux_false : ∃ q : SwState, 0 < q.height ∧ (swFlux 10 q 0).get (.momentum 0) = 24 ∧ swPhysFlux 10 q 0 (.momentum 0) = 22 := by
  refine ⟨⟨2, ![2, 0]⟩, by norm_num, ?_, ?_⟩
  · simp [swFlux, SwState.get]; norm_num
  · simp [swPhysFlux, SwState.vel]; norm_num

/-! ### The wave functions -/

/-- The common part of `f_left` and `f_right`. -/
noncomputable def swPhi (g k h : ℝ) : ℝ :=
  if h < k then 2 * (Real.sqrt (g * h) - Real.sqrt (g * k)) else (h - k) * Real.sqrt (1 / 2 * g * (1 / h + 1 / k))

theorem swFLeft_eq (g u k h : ℝ) : swFLeft g u k h = u - swPhi g k h := by
  simp only [swFLeft, swPhi]; split <;> ring

theorem swFRight_eq (g u k h : ℝ) : swFRight g u k h = u + swPhi g k h := by
  simp only [swFRight, swPhi]; split <;> ring

theorem swDFLeft_eq (g k h : ℝ) : swDFLeft g k h = -swDFRight g k h := by
  simp only [swDFLeft, swDFRight]; split <;> ring

theorem swPhi_self (g k : ℝ) : swPhi g k k = 0 := by simp [swPhi]

theorem sqrt_half {g k : ℝ} (hk : 0 < k) : Real.sqrt (1 / 2 * g * (1 / k + 1 / k)) = Real.sqrt (g / k) := by
  congr 1; field_simp; ring

theorem sqrt_ratio {g k : ℝ} (hg : 0 < g) (hk : 0 < k) : g / Real.sqrt (g * k) = Real.sqrt (g / k) := by
  have h1 : 0 < Real.sqrt (g * k) := Real.sqrt_pos.2 (by positivity)
  rw [div_eq_iff h1.ne', ← Real.sqrt_mul (by positivity), show g / k * (g * k) = g ^ 2 by field_simp, Real.sqrt_sq hg.le]

/-- The derivative used by the solver is the derivative of the wave function. -/
theorem swPhi_deriv {g k h : ℝ} (hg : 0 < g) (hk : 0 < k) (hh : 0 < h) : HasDerivAt (swPhi g k) (swDFRight g k h) h := by
  have hA : ∀ h, 0 < h → HasDerivAt (fun h => 2 * (Real.sqrt (g * h) - Real.sqrt (g * k))) (g / Real.sqrt (g * h)) h := by
    intro h hh
    have h0 : g * h ≠ 0 := (mul_pos hg hh).ne'
    have h1 := (((hasDerivAt_id h).const_mul g).sqrt h0).sub_const (Real.sqrt (g * k))
    have h2 := h1.const_mul 2
    refine h2.congr_deriv ?_
    have := Real.sqrt_pos.2 (mul_pos hg hh)
    simp only [id_eq]; field_simp
  have hB : ∀ h, 0 < h → HasDerivAt (fun h => (h - k) * Real.sqrt (1 / 2 * g * (1 / h + 1 / k)))
      (Real.sqrt (1 / 2 * g * (1 / h + 1 / k)) - 1 / 4 * g * (h - k) / (h * h * Real.sqrt (1 / 2 * g * (1 / h + 1 / k)))) h := by
    intro h hh
    have hp : 0 < 1 / 2 * g * (1 / h + 1 / k) := by positivity
    have h1 : HasDerivAt (fun h : ℝ => 1 / 2 * g * (1 / h + 1 / k)) (1 / 2 * g * (-(h ^ 2)⁻¹)) h := by
      have := ((hasDerivAt_inv hh.ne').add_const (1 / k)).const_mul (1 / 2 * g)
      simpa [one_div] using this
    have h2 := h1.sqrt hp.ne'
    have h3 := ((hasDerivAt_id h).sub_const k).mul h2
    refine h3.congr_deriv ?_
    have := Real.sqrt_pos.2 hp
    simp only [id_eq]
    field_simp
    ring
  rcases lt_trichotomy h k with hlt | rfl | hgt
  · have e : swPhi g k =ᶠ[nhds h] fun h => 2 * (Real.sqrt (g * h) - Real.sqrt (g * k)) := by
      filter_upwards [Iio_mem_nhds hlt] with x hx using if_pos hx
    rw [swDFRight, if_pos hlt]
    exact (hA h hh).congr_of_eventuallyEq e
  · have e1 : HasDerivWithinAt (swPhi g h) (Real.sqrt (g / h)) (Iic h) h := by
      have := ((hA h hh).congr_deriv (sqrt_ratio hg hh)).hasDerivWithinAt (s := Iic h)
      refine this.congr (fun x hx => ?_) (by simp [swPhi])
      rcases (show x ≤ h from hx).lt_or_eq with hx | rfl
      · exact if_pos hx
      · simp [swPhi]
    have e2 : HasDerivWithinAt (swPhi g h) (Real.sqrt (g / h)) (Ici h) h := by
      have := ((hB h hh).congr_deriv (g' := Real.sqrt (g / h)) (by simp only [sub_self, mul_zero, zero_div, sub_zero, sqrt_half hh])).hasDerivWithinAt (s := Ici h)
      refine this.congr (fun x hx => ?_) (by simp [swPhi])
      exact if_neg (not_lt.2 hx)
    have e3 := e1.union e2
    rw [Iic_union_Ici, hasDerivWithinAt_univ] at e3
    refine e3.congr_deriv ?_
    rw [swDFRight, if_neg (lt_irrefl _)]
    simp only [sub_self, mul_zero, zero_div, sub_zero, sqrt_half hh]
  · have e : swPhi g k =ᶠ[nhds h] fun h => (h - k) * Real.sqrt (1 / 2 * g * (1 / h + 1 / k)) := by
      filter_upwards [Ioi_mem_nhds hgt] with x hx using if_neg (not_lt.2 (le_of_lt hx))
    rw [swDFRight, if_neg (not_lt.2 hgt.le)]
    exact (hB h hh).congr_of_eventuallyEq e

/-- Closed form of the derivative in the shock branch. -/
theorem swDF_shock {g k h : ℝ} (hg : 0 < g) (hk : 0 < k) (hh : k ≤ h) :
    swDFRight g k h = g / (4 * k) * ((k / h) ^ 2 + k / h + 2) / Real.sqrt (g / (2 * k) * (1 + k / h)) := by
  have h0 : 0 < h := hk.trans_le hh
  have e : 1 / 2 * g * (1 / h + 1 / k) = g / (2 * k) * (1 + k / h) := by field_simp; ring
  rw [swDFRight, if_neg (not_lt.2 hh), e]
  have hp : 0 < g / (2 * k) * (1 + k / h) := by positivity
  have hs := Real.sqrt_pos.2 hp
  have hsq := Real.mul_self_sqrt hp.le
  generalize Real.sqrt (g / (2 * k) * (1 + k / h)) = s at hs hsq
  rw [eq_div_iff hs.ne', sub_mul, hsq]
  field_simp
  ring

theorem swDF_pos {g k h : ℝ} (hg : 0 < g) (hk : 0 < k) (hh : 0 < h) : 0 < swDFRight g k h := by
  by_cases hlt : h < k
  · rw [swDFRight, if_pos hlt]; exact div_pos hg (Real.sqrt_pos.2 (by positivity))
  · rw [swDF_shock hg hk (not_lt.1 hlt)]; exact div_pos (by positivity) (Real.sqrt_pos.2 (by positivity))

theorem swDF_anti_shock {g k a b : ℝ} (hg : 0 < g) (hk : 0 < k) (ha : k ≤ a) (hab : a ≤ b) : swDFRight g k b ≤ swDFRight g k a := by
  have a0 : 0 < a := hk.trans_le ha
  have b0 : 0 < b := a0.trans_le hab
  rw [swDF_shock hg hk ha, swDF_shock hg hk (ha.trans hab)]
  have hx : k / b ≤ k / a := div_le_div_of_nonneg_left hk.le a0 hab
  have hx0 : 0 < k / b := by positivity
  generalize k / b = x at hx hx0
  generalize k / a = y at hx
  have hy0 : 0 < y := hx0.trans_le hx
  have hc : 0 < g / (2 * k) := by positivity
  have sx := Real.sqrt_pos.2 (mul_pos hc (show 0 < 1 + x by linarith))
  have sy := Real.sqrt_pos.2 (mul_pos hc (show 0 < 1 + y by linarith))
  rw [div_le_div_iff₀ sx sy, mul_assoc, mul_assoc]
  refine mul_le_mul_of_nonneg_left ?_ (by positivity)
  have l0 : 0 ≤ (x ^ 2 + x + 2) * Real.sqrt (g / (2 * k) * (1 + y)) := by positivity
  have r0 : 0 ≤ (y ^ 2 + y + 2) * Real.sqrt (g / (2 * k) * (1 + x)) := by positivity
  rw [← pow_le_pow_iff_left₀ l0 r0 two_ne_zero, mul_pow, mul_pow, Real.sq_sqrt (by positivity), Real.sq_sqrt (by positivity)]
  have key : (x ^ 2 + x + 2) ^ 2 * (1 + y) ≤ (y ^ 2 + y + 2) ^ 2 * (1 + x) := by
    obtain ⟨t, rfl⟩ : ∃ t, y = x + t := ⟨y - x, by ring⟩
    have t0 : 0 ≤ t := by linarith
    have : (x + t) ^ 2 + (x + t) + 2 = (x ^ 2 + x + 2) + t * (2 * x + t + 1) := by ring
    rw [this]
    have p1 : 0 ≤ t * (x ^ 2 + x + 2) * (2 * (2 * x + t + 1) * (1 + x) - (x ^ 2 + x + 2)) := by
      refine mul_nonneg (by positivity) ?_
      nlinarith
    have p2 : 0 ≤ (t * (2 * x + t + 1)) ^ 2 * (1 + x) := by positivity
    nlinarith
  calc _ = g / (2 * k) * ((x ^ 2 + x + 2) ^ 2 * (1 + y)) := by ring
    _ ≤ g / (2 * k) * ((y ^ 2 + y + 2) ^ 2 * (1 + x)) := mul_le_mul_of_nonneg_left key hc.le
    _ = _ := by ring

theorem swDF_anti {g k a b : ℝ} (hg : 0 < g) (hk : 0 < k) (ha : 0 < a) (hab : a ≤ b) : swDFRight g k b ≤ swDFRight g k a := by
  by_cases h1 : k ≤ a
  · exact swDF_anti_shock hg hk h1 hab
  · have h1 := not_le.1 h1
    have hrar : ∀ c, a ≤ c → g / Real.sqrt (g * c) ≤ g / Real.sqrt (g * a) := fun c hc =>
      div_le_div_of_nonneg_left hg.le (Real.sqrt_pos.2 (by positivity)) (Real.sqrt_le_sqrt (mul_le_mul_of_nonneg_left hc hg.le))
    rw [swDFRight.eq_def g k a, if_pos h1]
    by_cases h2 : b < k
    · rw [swDFRight, if_pos h2]; exact hrar b hab
    · have := swDF_anti_shock hg hk le_rfl (not_lt.1 h2)
      refine this.trans ?_
      rw [swDFRight, if_neg (lt_irrefl _)]
      simp only [sub_self, mul_zero, zero_div, sub_zero, sqrt_half hk]
      rw [← sqrt_ratio hg hk]
      exact hrar k h1.le

/-! ### The function whose zero is sought -/

theorem swF_eq (g uL hL uR hR h : ℝ) : swF g uL hL uR hR h = uR - uL + (swPhi g hL h + swPhi g hR h) := by
  rw [swF, swFLeft_eq, swFRight_eq]; ring

theorem swDF_eq (g hL hR h : ℝ) : swDF g hL hR h = swDFRight g hL h + swDFRight g hR h := by
  rw [swDF, swDFLeft_eq]; ring

/-- **C52 (Newton iteration).** `df` is the derivative of `f` at every positive height, it is positive and decreasing. -/
theorem sw_newton_derivative (g uL hL uR hR : ℝ) (hg : 0 < g) (h1 : 0 < hL) (h2 : 0 < hR) :
    (∀ h, 0 < h → HasDerivAt (swF g uL hL uR hR) (swDF g hL hR h) h ∧ 0 < swDF g hL hR h) ∧
    ∀ a b, 0 < a → a ≤ b → swDF g hL hR b ≤ swDF g hL hR a := by
  refine ⟨fun h hh => ⟨?_, ?_⟩, fun a b ha hab => ?_⟩
  · have e : swF g uL hL uR hR = fun h => uR - uL + (swPhi g hL h + swPhi g hR h) := funext fun h => swF_eq g uL hL uR hR h
    rw [e, swDF_eq]
    exact ((swPhi_deriv hg h1 hh).add (swPhi_deriv hg h2 hh)).const_add _
  · rw [swDF_eq]; exact add_pos (swDF_pos hg h1 hh) (swDF_pos hg h2 hh)
  · rw [swDF_eq, swDF_eq]; exact add_le_add (swDF_anti hg h1 ha hab) (swDF_anti hg h2 ha hab)

theorem swF_strictMono (g uL hL uR hR : ℝ) (hg : 0 < g) (h1 : 0 < hL) (h2 : 0 < hR) : StrictMonoOn (swF g uL hL uR hR) (Ioi 0) := by
  have hd := (sw_newton_derivative g uL hL uR hR hg h1 h2).1
  refine strictMonoOn_of_deriv_pos (convex_Ioi 0) (fun x hx => (hd x hx).1.continuousAt.continuousWithinAt) fun x hx => ?_
  rw [interior_Ioi] at hx
  rw [(hd x hx).1.deriv]
  exact (hd x hx).2

theorem swF_tangent (g uL hL uR hR : ℝ) (hg : 0 < g) (h1 : 0 < hL) (h2 : 0 < hR) (x y : ℝ) (hx : 0 < x) (hy : 0 < y) :
    swF g uL hL uR hR y ≤ swF g uL hL uR hR x + swDF g hL hR x * (y - x) := by
  obtain ⟨hd, ha⟩ := sw_newton_derivative g uL hL uR hR hg h1 h2
  rcases lt_trichotomy x y with h | rfl | h
  · obtain ⟨c, hc, he⟩ := exists_hasDerivAt_eq_slope (swF g uL hL uR hR) (swDF g hL hR) h
      (fun z hz => (hd z (hx.trans_le hz.1)).1.continuousAt.continuousWithinAt) (fun z hz => (hd z (hx.trans hz.1)).1)
    rw [eq_div_iff (by linarith)] at he
    have := mul_le_mul_of_nonneg_right (ha x c hx hc.1.le) (sub_pos.2 h).le
    linarith
  · simp
  · obtain ⟨c, hc, he⟩ := exists_hasDerivAt_eq_slope (swF g uL hL uR hR) (swDF g hL hR) h
      (fun z hz => (hd z (hy.trans_le hz.1)).1.continuousAt.continuousWithinAt) (fun z hz => (hd z (hy.trans hz.1)).1)
    rw [eq_div_iff (by linarith)] at he
    have := mul_le_mul_of_nonneg_right (ha c x (hy.trans hc.1) hc.2.le) (sub_pos.2 h).le
    linarith

theorem swPhi_lower {g k h : ℝ} (hk : 0 < k) : -(2 * Real.sqrt (g * k)) ≤ swPhi g k h := by
  have := Real.sqrt_nonneg (g * k)
  have := Real.sqrt_nonneg (g * h)
  simp only [swPhi]
  split
  · linarith
  · rename_i hlt
    have := mul_nonneg (sub_nonneg.2 (not_lt.1 hlt)) (Real.sqrt_nonneg (1 / 2 * g * (1 / h + 1 / k)))
    linarith

theorem swF_zero {g uL hL uR hR : ℝ} (h1 : 0 < hL) (h2 : 0 < hR) :
    swF g uL hL uR hR 0 = uR - uL - 2 * (Real.sqrt (g * hL) + Real.sqrt (g * hR)) := by
  rw [swF_eq, swPhi, swPhi, if_pos h1, if_pos h2]; simp; ring

/-- **C52 (existence and uniqueness of the middle state).** For positive heights there is at most one height at which the two wave curves meet, and there is
one if and only if no dry bed appears, i.e. `u_R - u_L < 2 (c_L + c_R)`. -/
theorem sw_middle_unique (g uL hL uR hR : ℝ) (hg : 0 < g) (h1 : 0 < hL) (h2 : 0 < hR) :
    (∀ a b, 0 < a → 0 < b → swFLeft g uL hL a = swFRight g uR hR a → swFLeft g uL hL b = swFRight g uR hR b → a = b) ∧
    ((∃ h, 0 < h ∧ swFLeft g uL hL h = swFRight g uR hR h) ↔ uR - uL < 2 * (Real.sqrt (g * hL) + Real.sqrt (g * hR))) := by
  have hm := swF_strictMono g uL hL uR hR hg h1 h2
  have hz : ∀ h, swFLeft g uL hL h = swFRight g uR hR h ↔ swF g uL hL uR hR h = 0 := fun h => by
    rw [swF, sub_eq_zero]; exact eq_comm
  refine ⟨fun a b ha hb ea eb => ?_, ⟨?_, ?_⟩⟩
  · rw [hz] at ea eb
    exact hm.injOn ha hb (ea.trans eb.symm)
  · rintro ⟨h, hh, he⟩
    rw [hz] at he
    have hlow : swF g uL hL uR hR (h / 2) < 0 := he ▸ hm (show 0 < h / 2 by linarith) hh (by linarith)
    rw [swF_eq] at hlow
    have a1 := swPhi_lower (g := g) (h := h / 2) h1
    have a2 := swPhi_lower (g := g) (h := h / 2) h2
    linarith
  · intro hlt
    have hc : ContinuousOn (swF g uL hL uR hR) (Ioi 0) := fun x hx =>
      ((sw_newton_derivative g uL hL uR hR hg h1 h2).1 x hx).1.continuousAt.continuousWithinAt
    -- a small height with negative value
    obtain ⟨e, he⟩ : ∃ e, e = 2 * (Real.sqrt (g * hL) + Real.sqrt (g * hR)) - (uR - uL) := ⟨_, rfl⟩
    have e0 : 0 < e := by rw [he]; linarith
    obtain ⟨a, ha0, haL, haR, haF⟩ : ∃ a, 0 < a ∧ a < hL ∧ a < hR ∧ swF g uL hL uR hR a < 0 := by
      refine ⟨min (min (hL / 2) (hR / 2)) ((e / 8) ^ 2 / g), ?_, ?_, ?_, ?_⟩
      · exact lt_min (lt_min (by linarith) (by linarith)) (by positivity)
      · exact (min_le_left _ _).trans (min_le_left _ _) |>.trans_lt (by linarith)
      · exact (min_le_left _ _).trans (min_le_right _ _) |>.trans_lt (by linarith)
      · have q1 : min (min (hL / 2) (hR / 2)) ((e / 8) ^ 2 / g) < hL := (min_le_left _ _).trans (min_le_left _ _) |>.trans_lt (by linarith)
        have q2 : min (min (hL / 2) (hR / 2)) ((e / 8) ^ 2 / g) < hR := (min_le_left _ _).trans (min_le_right _ _) |>.trans_lt (by linarith)
        have q3 : Real.sqrt (g * min (min (hL / 2) (hR / 2)) ((e / 8) ^ 2 / g)) ≤ e / 8 := by
          rw [Real.sqrt_le_left (by positivity)]
          calc g * _ ≤ g * ((e / 8) ^ 2 / g) := mul_le_mul_of_nonneg_left (min_le_right _ _) hg.le
            _ = _ := by field_simp
        rw [swF_eq, swPhi, swPhi, if_pos q1, if_pos q2]
        linarith
    -- a large height with positive value
    obtain ⟨b, hbL, hbF⟩ : ∃ b, max hL hR ≤ b ∧ 0 < swF g uL hL uR hR b := by
      have s0 : 0 < Real.sqrt (g / (2 * hL)) := Real.sqrt_pos.2 (by positivity)
      refine ⟨max hL hR + (|uR - uL| + 1) / Real.sqrt (g / (2 * hL)), by have : 0 < (|uR - uL| + 1) / Real.sqrt (g / (2 * hL)) := by positivity
                                                                         linarith, ?_⟩
      have t0 : 0 < (|uR - uL| + 1) / Real.sqrt (g / (2 * hL)) := by positivity
      generalize hb : max hL hR + (|uR - uL| + 1) / Real.sqrt (g / (2 * hL)) = b
      have bL : hL ≤ b := by have := le_max_left hL hR; linarith
      have bR : hR ≤ b := by have := le_max_right hL hR; linarith
      have b0 : 0 < b := h1.trans_le bL
      rw [swF_eq, swPhi, swPhi, if_neg (not_lt.2 bL), if_neg (not_lt.2 bR)]
      have r1 : 0 ≤ (b - hR) * Real.sqrt (1 / 2 * g * (1 / b + 1 / hR)) := mul_nonneg (by linarith) (Real.sqrt_nonneg _)
      have r2 : Real.sqrt (g / (2 * hL)) ≤ Real.sqrt (1 / 2 * g * (1 / b + 1 / hL)) := by
        apply Real.sqrt_le_sqrt
        have : 0 < 1 / 2 * g * (1 / b) := by positivity
        have e2 : g / (2 * hL) = 1 / 2 * g * (1 / hL) := by field_simp
        rw [e2]; linarith
      have r3 : |uR - uL| + 1 ≤ (b - hL) * Real.sqrt (1 / 2 * g * (1 / b + 1 / hL)) := by
        calc |uR - uL| + 1 = (|uR - uL| + 1) / Real.sqrt (g / (2 * hL)) * Real.sqrt (g / (2 * hL)) := by field_simp
          _ ≤ (b - hL) * Real.sqrt (1 / 2 * g * (1 / b + 1 / hL)) := by
            refine mul_le_mul ?_ r2 s0.le (by linarith)
            have := le_max_left hL hR; linarith
      have := neg_abs_le (uR - uL)
      linarith
    have hab : a ≤ b := (haL.le.trans (le_max_left hL hR)).trans hbL
    have hsub : Icc a b ⊆ Ioi 0 := fun x hx => ha0.trans_le hx.1
    obtain ⟨h, hh, he⟩ := intermediate_value_Icc hab (hc.mono hsub) ⟨haF.le, hbF.le⟩
    exact ⟨h, hsub hh, (hz h).2 he⟩

/-- **C52 (convergence).** If no dry bed appears, a sufficiently large iteration limit makes the solver's Newton iteration return a nonnegative height at which
the two wave curves differ by at most the tolerance `1e-7`, or the height zero. (The last case needs an iterate that vanishes exactly.)
How large the limit has to be depends on the states; the code uses 5000. -/
theorem sw_newton_converges (g : ℝ) (hg : 0 < g) (left right : SwState) (dir : Fin 2) (h1 : 0 < left.height) (h2 : 0 < right.height)
    (hdry : right.vel dir - left.vel dir < 2 * (left.cel g + right.cel g)) :
    ∃ N : ℤ, ∀ limit, N ≤ limit → ∃ m, swMiddle g limit left right dir = some m ∧ 0 ≤ m.height ∧
      (|swFRight g (right.vel dir) right.height m.height - swFLeft g (left.vel dir) left.height m.height| ≤ 1 / 10 ^ 7 ∨ m.height = 0) := by
  obtain ⟨hd, ha⟩ := sw_newton_derivative g (left.vel dir) left.height (right.vel dir) right.height hg h1 h2
  obtain ⟨r, hr, he⟩ := (sw_middle_unique g (left.vel dir) left.height (right.vel dir) right.height hg h1 h2).2.2 hdry
  have hF : swF g (left.vel dir) left.height (right.vel dir) right.height r = 0 := by rw [swF, he, sub_self]
  have hF0 : swF g (left.vel dir) left.height (right.vel dir) right.height 0 ≤ 0 := by
    rw [swF_zero h1 h2]
    simp only [SwState.cel] at hdry
    linarith
  have hD0 : swDF g left.height right.height 0 = 0 := by
    rw [swDF_eq, swDFRight, swDFRight, if_pos h1, if_pos h2]; simp
  obtain ⟨N, hN⟩ := newton_concave (fun x hx => (hd x hx).2) hD0 (swF_tangent g (left.vel dir) left.height (right.vel dir) right.height hg h1 h2) ha hr hF hF0
    (show (0 : ℝ) < 1 / 10 ^ 7 by norm_num) (show 0 < 1 / 2 * (left.height + right.height) by linarith)
  refine ⟨N, fun limit hl => ?_⟩
  obtain ⟨x, e, x0, hx⟩ := hN limit hl
  refine ⟨⟨x, fun i => if i = dir then x * swFLeft g (left.momentum dir / left.height) left.height x else 0⟩,
    by simp only [swMiddle]; simp only [SwState.vel] at e; rw [e], x0, hx⟩

/-- **C52 (dry bed).** If the states move apart so fast that a dry bed appears (by more than the tolerance), the solver throws, for every iteration limit that
is not negative. -/
theorem sw_dry_bed_throws (g : ℝ) (left right : SwState) (dir : Fin 2) (h1 : 0 < left.height) (h2 : 0 < right.height)
    (hdry : 2 * (left.cel g + right.cel g) + 1 / 10 ^ 7 < right.vel dir - left.vel dir) (limit : Int) (hl : 0 ≤ limit) :
    swSolve g limit left right dir = none := by
  have hpos : ∀ x, 1 / 10 ^ 7 < swF g (left.vel dir) left.height (right.vel dir) right.height x := by
    intro x
    rw [swF_eq]
    have a1 := swPhi_lower (g := g) (h := x) h1
    have a2 := swPhi_lower (g := g) (h := x) h2
    simp only [SwState.cel] at hdry
    linarith
  have : swMiddle g limit left right dir = none := by
    cases hn : newtonIteration (swF g (left.vel dir) left.height (right.vel dir) right.height) (swDF g left.height right.height)
      (1 / 2 * (left.height + right.height)) (1 / 10 ^ 7) limit with
    | none => simp only [swMiddle]; simp only [SwState.vel] at hn; rw [hn]
    | some x => exact absurd ((newton_converged_partial _ _ _ _ limit hl).1 x hn).1 (not_le.2 (hpos x))
  simp only [swSolve, if_pos (And.intro h1 h2), this]

/-! ### The sampled solution -/

theorem fin2_succ_ne (dir : Fin 2) : dir + 1 ≠ dir := by fin_cases dir <;> decide

theorem fin2_cases (dir i : Fin 2) : i = dir ∨ i = dir + 1 := by fin_cases dir <;> fin_cases i <;> decide

theorem swMk_vel (dir : Fin 2) (h u v : ℝ) (hh : h ≠ 0) : (SwState.mk' dir h u v).vel dir = u ∧ (SwState.mk' dir h u v).vel (dir + 1) = v := by
  simp only [SwState.vel, SwState.mk', if_pos, if_neg (fin2_succ_ne dir)]
  exact ⟨by field_simp, by field_simp⟩

/-- One shock, in scalars. -/
theorem sw_shock_scalar {g k h : ℝ} (u : ℝ) (hg : 0 < g) (hk : 0 < k) (hh : k < h) :
    let u' := u - swPhi g k h
    let s := (h * u' - k * u) / (h - k)
    h * u' - k * u = s * (h - k) ∧ h * u' ^ 2 + g * h ^ 2 / 2 - (k * u ^ 2 + g * k ^ 2 / 2) = s * (h * u' - k * u) ∧
    u' - Real.sqrt (g * h) < s ∧ s < u - Real.sqrt (g * k) := by
  intro u' s
  have h0 : 0 < h := hk.trans hh
  have hp : 0 < 1 / 2 * g * (1 / h + 1 / k) := by positivity
  have hS := Real.sqrt_pos.2 hp
  have hS2 := Real.sq_sqrt hp.le
  have eu : u' = u - (h - k) * Real.sqrt (1 / 2 * g * (1 / h + 1 / k)) := by simp only [u', swPhi, if_neg (not_lt.2 hh.le)]
  clear_value u'
  have hd : h - k ≠ 0 := (sub_pos.2 hh).ne'
  generalize Real.sqrt (1 / 2 * g * (1 / h + 1 / k)) = S at *
  have es : s = u - h * S := by simp only [s]; rw [div_eq_iff hd, eu]; ring
  have hS3 : 2 * h * k * S ^ 2 = g * (h + k) := by rw [hS2]; field_simp; ring
  clear_value s
  subst eu es
  refine ⟨by ring, ?_, ?_, ?_⟩
  · linear_combination (-(h - k) / 2) * hS3
  · have : k * S < Real.sqrt (g * h) := by
      rw [Real.lt_sqrt (by positivity)]
      have e : 2 * h * (k * S) ^ 2 = k * (g * (h + k)) := by rw [← hS3]; ring
      have : k * (g * (h + k)) < 2 * h * (g * h) := by nlinarith [mul_pos hg hk, mul_pos hg h0, mul_pos (mul_pos hg hk) (sub_pos.2 hh), mul_pos (mul_pos hg h0) (sub_pos.2 hh)]
      nlinarith
    linarith
  · have : Real.sqrt (g * k) < h * S := by
      rw [Real.sqrt_lt' (by positivity)]
      have e : 2 * k * (h * S) ^ 2 = h * (g * (h + k)) := by rw [← hS3]; ring
      have : 2 * k * (g * k) < h * (g * (h + k)) := by nlinarith [mul_pos hg hk, mul_pos hg h0, mul_pos (mul_pos hg hk) (sub_pos.2 hh), mul_pos (mul_pos hg h0) (sub_pos.2 hh)]
      nlinarith
    linarith

/-- The state on the left side of the middle region, the one on its right side. -/
noncomputable def swMidL (m left : SwState) (dir : Fin 2) : SwState := .mk' dir m.height (m.vel dir) (left.vel (dir + 1))
/-- See `swMidL`. -/
noncomputable def swMidR (m right : SwState) (dir : Fin 2) : SwState := .mk' dir m.height (m.vel dir) (right.vel (dir + 1))

theorem swMid_vel (m o : SwState) (dir : Fin 2) (h : m.height ≠ 0) :
    (swMidL m o dir).vel dir = m.vel dir ∧ (swMidL m o dir).vel (dir + 1) = o.vel (dir + 1) ∧ (swMidL m o dir).height = m.height :=
  ⟨(swMk_vel dir _ _ _ h).1, (swMk_vel dir _ _ _ h).2, rfl⟩

/-- Jump conditions of all components from the scalar ones. -/
theorem sw_jump {g h k u' u v s : ℝ} (dir : Fin 2) (A B : SwState) (hA : A.height = h) (hB : B.height = k) (h0 : h ≠ 0) (k0 : k ≠ 0)
    (uA : A.vel dir = u') (uB : B.vel dir = u) (vA : A.vel (dir + 1) = v) (vB : B.vel (dir + 1) = v)
    (e1 : h * u' - k * u = s * (h - k)) (e2 : h * u' ^ 2 + g * h ^ 2 / 2 - (k * u ^ 2 + g * k ^ 2 / 2) = s * (h * u' - k * u)) :
    ∀ w, swPhysFlux g A dir w - swPhysFlux g B dir w = s * (A.get w - B.get w) := by
  have mA : A.momentum dir = h * u' := by rw [← uA, SwState.vel, hA]; field_simp
  have mB : B.momentum dir = k * u := by rw [← uB, SwState.vel, hB]; field_simp
  have nA : A.momentum (dir + 1) = h * v := by rw [← vA, SwState.vel, hA]; field_simp
  have nB : B.momentum (dir + 1) = k * v := by rw [← vB, SwState.vel, hB]; field_simp
  intro w
  cases w with
  | height => simp only [swPhysFlux, SwState.get, uA, uB, hA, hB]; exact e1
  | momentum i =>
    rcases fin2_cases dir i with rfl | rfl
    · simp only [swPhysFlux, SwState.get, if_true, uA, uB, hA, hB, mA, mB]; linear_combination e2
    · simp only [swPhysFlux, SwState.get, if_neg (fin2_succ_ne dir), uA, uB, nA, nB]; linear_combination v * e1

/-- The conditions a sampled state `q` at speed zero has to meet to belong to the wave of the first family from `L` to `M`. -/
def SwSampled1 (g : ℝ) (dir : Fin 2) (L M q : SwState) : Prop :=
  (L.height < M.height ∧ ∃ s, IsSwShock1 g dir L M s ∧ (0 < s → q = L) ∧ (s ≤ 0 → q = M)) ∨
  (M.height ≤ L.height ∧ IsSwRar1 g dir L M ∧ (0 < L.vel dir - L.cel g → q = L) ∧
    (L.vel dir - L.cel g ≤ 0 → M.vel dir - M.cel g < 0 → q = M) ∧
    (L.vel dir - L.cel g ≤ 0 → 0 ≤ M.vel dir - M.cel g →
      q.vel dir - q.cel g = 0 ∧ q.vel dir + 2 * q.cel g = L.vel dir + 2 * L.cel g ∧ q.vel (dir + 1) = L.vel (dir + 1)))

/-- The same for the wave of the second family from `M` to `R`. -/
def SwSampled2 (g : ℝ) (dir : Fin 2) (M R q : SwState) : Prop :=
  (R.height < M.height ∧ ∃ s, IsSwShock2 g dir M R s ∧ (s < 0 → q = R) ∧ (0 ≤ s → q = M)) ∨
  (M.height ≤ R.height ∧ IsSwRar2 g dir M R ∧ (R.vel dir + R.cel g < 0 → q = R) ∧
    (0 ≤ R.vel dir + R.cel g → 0 < M.vel dir + M.cel g → q = M) ∧
    (0 ≤ R.vel dir + R.cel g → M.vel dir + M.cel g ≤ 0 →
      q.vel dir + q.cel g = 0 ∧ q.vel dir - 2 * q.cel g = R.vel dir - 2 * R.cel g ∧ q.vel (dir + 1) = R.vel (dir + 1)))

theorem swMid_eq (m o : SwState) (dir : Fin 2) (h : m.height ≠ 0) (w : ℝ) :
    (⟨m.height, fun i => if i = dir + 1 then m.height * w else m.momentum i⟩ : SwState) = .mk' dir m.height (m.vel dir) w := by
  simp only [SwState.mk', SwState.mk.injEq, true_and]
  funext i
  rcases fin2_cases dir i with rfl | rfl
  · rw [if_neg (fin2_succ_ne i).symm, if_pos rfl, SwState.vel]; field_simp
  · rw [if_pos rfl, if_neg (fin2_succ_ne dir)]

theorem swSonic_vel (dir : Fin 2) (h u v : ℝ) : (⟨h, fun i => if i = dir then h * u else h * v⟩ : SwState) = .mk' dir h u v := rfl

/-- **C52 (sampling).** Let `m` be a state of positive height on both wave curves (the exact middle state). Then the left wave connects `left` to the middle
region by an entropic shock or a rarefaction, the right wave connects it to `right`, and the state returned by the solver has positive height and is the value
of this solution at the interface. -/
theorem sw_sample_exact (g : ℝ) (hg : 0 < g) (m left right : SwState) (dir : Fin 2) (h1 : 0 < left.height) (h2 : 0 < right.height) (hm : 0 < m.height)
    (hL : m.vel dir = swFLeft g (left.vel dir) left.height m.height) (hR : m.vel dir = swFRight g (right.vel dir) right.height m.height) :
    0 < (swSample g m left right dir).height ∧
    (∃ q, SwSampled1 g dir left (swMidL m left dir) q) ∧ (∃ q, SwSampled2 g dir (swMidR m right dir) right q) ∧
    (0 ≤ m.vel dir → SwSampled1 g dir left (swMidL m left dir) (swSample g m left right dir)) ∧
    (m.vel dir < 0 → SwSampled2 g dir (swMidR m right dir) right (swSample g m left right dir)) := by
  rw [swFLeft_eq] at hL
  rw [swFRight_eq] at hR
  have cM : 0 < Real.sqrt (g * m.height) := Real.sqrt_pos.2 (by positivity)
  -- the left wave for any sign of the velocity
  have left1 : ∀ q, (left.height < m.height → (0 < (m.height * m.vel dir - left.height * left.vel dir) / (m.height - left.height) → q = left) ∧
        ((m.height * m.vel dir - left.height * left.vel dir) / (m.height - left.height) ≤ 0 → q = swMidL m left dir)) →
      (m.height ≤ left.height → (0 < left.vel dir - left.cel g → q = left) ∧ (left.vel dir - left.cel g ≤ 0 → m.vel dir - Real.sqrt (g * m.height) < 0 → q = swMidL m left dir) ∧
        (left.vel dir - left.cel g ≤ 0 → 0 ≤ m.vel dir - Real.sqrt (g * m.height) →
          q = .mk' dir ((left.vel dir + 2 * left.cel g) * (left.vel dir + 2 * left.cel g) / (9 * g))
            (left.vel dir + 2 * (left.cel g - Real.sqrt (g * ((left.vel dir + 2 * left.cel g) * (left.vel dir + 2 * left.cel g) / (9 * g))))) (left.vel (dir + 1)))) →
      SwSampled1 g dir left (swMidL m left dir) q ∧ 0 < q.height := by
    intro q hs hr
    obtain ⟨v1, v2, v3⟩ := swMid_vel m left dir hm.ne'
    by_cases hc : left.height < m.height
    · have sc := sw_shock_scalar (left.vel dir) hg h1 hc
      simp only [← hL] at sc
      obtain ⟨k1, k2⟩ := hs hc
      refine ⟨Or.inl ⟨hc, _, ⟨sw_jump dir _ _ v3 rfl hm.ne' h1.ne' v1 rfl v2 rfl sc.1 sc.2.1, ?_, ?_⟩, k1, k2⟩, ?_⟩
      · rw [v1, SwState.cel, v3]; exact sc.2.2.1
      · exact sc.2.2.2
      · rcases lt_or_ge 0 ((m.height * m.vel dir - left.height * left.vel dir) / (m.height - left.height)) with h | h
        · rw [k1 h]; exact h1
        · rw [k2 h, v3]; exact hm
    · have hc := not_lt.1 hc
      obtain ⟨k1, k2, k3⟩ := hr hc
      have e : m.vel dir + 2 * Real.sqrt (g * m.height) = left.vel dir + 2 * Real.sqrt (g * left.height) := by
        rcases hc.lt_or_eq with hc | hc
        · rw [hL, swPhi, if_pos hc]; ring
        · rw [hL, ← hc, swPhi_self]; ring
      have ecel : Real.sqrt (g * m.height) ≤ Real.sqrt (g * left.height) := Real.sqrt_le_sqrt (mul_le_mul_of_nonneg_left hc hg.le)
      have son : 0 ≤ m.vel dir - Real.sqrt (g * m.height) →
          0 < left.vel dir + 2 * left.cel g ∧ Real.sqrt (g * ((left.vel dir + 2 * left.cel g) * (left.vel dir + 2 * left.cel g) / (9 * g))) = (left.vel dir + 2 * left.cel g) / 3 := by
        intro h
        have p : 0 < left.vel dir + 2 * left.cel g := by rw [SwState.cel, ← e]; linarith
        refine ⟨p, ?_⟩
        rw [show g * ((left.vel dir + 2 * left.cel g) * (left.vel dir + 2 * left.cel g) / (9 * g)) = ((left.vel dir + 2 * left.cel g) / 3) ^ 2 by field_simp; ring]
        exact Real.sqrt_sq (by linarith)
      refine ⟨Or.inr ⟨hc, ⟨by rw [v1, SwState.cel, v3]; exact e, v2, ?_⟩, k1, fun a b => k2 a ?_, fun a b => ?_⟩, ?_⟩
      · rw [v1, SwState.cel, SwState.cel, v3]; linarith
      · rw [v1, SwState.cel, v3] at b; exact b
      · rw [v1, SwState.cel, v3] at b
        obtain ⟨p, es⟩ := son b
        rw [k3 a b, es]
        have hh : (left.vel dir + 2 * left.cel g) * (left.vel dir + 2 * left.cel g) / (9 * g) ≠ 0 := by positivity
        rw [(swMk_vel dir _ _ _ hh).1, (swMk_vel dir _ _ _ hh).2]
        have : (SwState.mk' dir ((left.vel dir + 2 * left.cel g) * (left.vel dir + 2 * left.cel g) / (9 * g)) (left.vel dir + 2 * (left.cel g - (left.vel dir + 2 * left.cel g) / 3))
          (left.vel (dir + 1))).cel g = (left.vel dir + 2 * left.cel g) / 3 := es
        rw [this]
        exact ⟨by ring, by ring, rfl⟩
      · rcases lt_or_ge 0 (left.vel dir - left.cel g) with h | h
        · rw [k1 h]; exact h1
        · rcases lt_or_ge (m.vel dir - Real.sqrt (g * m.height)) 0 with h' | h'
          · rw [k2 h h', v3]; exact hm
          · rw [k3 h h']
            have p := (son h').1
            show 0 < (left.vel dir + 2 * left.cel g) * (left.vel dir + 2 * left.cel g) / (9 * g)
            positivity
  have right1 : ∀ q, (right.height < m.height → ((right.height * right.vel dir - m.height * m.vel dir) / (right.height - m.height) < 0 → q = right) ∧
        (0 ≤ (right.height * right.vel dir - m.height * m.vel dir) / (right.height - m.height) → q = swMidR m right dir)) →
      (m.height ≤ right.height → (right.vel dir + right.cel g < 0 → q = right) ∧ (0 ≤ right.vel dir + right.cel g → 0 < m.vel dir + Real.sqrt (g * m.height) → q = swMidR m right dir) ∧
        (0 ≤ right.vel dir + right.cel g → m.vel dir + Real.sqrt (g * m.height) ≤ 0 →
          q = .mk' dir ((right.vel dir - 2 * right.cel g) * (right.vel dir - 2 * right.cel g) / (9 * g))
            (right.vel dir - 2 * (right.cel g - Real.sqrt (g * ((right.vel dir - 2 * right.cel g) * (right.vel dir - 2 * right.cel g) / (9 * g))))) (right.vel (dir + 1)))) →
      SwSampled2 g dir (swMidR m right dir) right q ∧ 0 < q.height := by
    intro q hs hr
    obtain ⟨v1, v2, v3⟩ := swMid_vel m right dir hm.ne'
    change (swMidR m right dir).vel dir = _ at v1
    change (swMidR m right dir).vel (dir + 1) = _ at v2
    change (swMidR m right dir).height = _ at v3
    by_cases hc : right.height < m.height
    · have sc := sw_shock_scalar (-right.vel dir) hg h2 hc
      have en : -right.vel dir - swPhi g right.height m.height = -m.vel dir := by rw [hR]; ring
      simp only [en] at sc
      obtain ⟨s, hs'⟩ : ∃ s, s = (right.height * right.vel dir - m.height * m.vel dir) / (right.height - m.height) := ⟨_, rfl⟩
      have es : (m.height * -m.vel dir - right.height * -right.vel dir) / (m.height - right.height) = -s := by
        have : m.height - right.height ≠ 0 := (sub_pos.2 hc).ne'
        have : right.height - m.height ≠ 0 := (sub_neg.2 hc).ne
        rw [hs', div_eq_iff (by assumption)]
        field_simp
        ring
      rw [es] at sc
      obtain ⟨k1, k2⟩ := hs hc
      rw [← hs'] at k1 k2
      refine ⟨Or.inl ⟨hc, s, ⟨sw_jump dir _ _ rfl v3 h2.ne' hm.ne' rfl v1 rfl v2 ?_ ?_, ?_, ?_⟩, k1, k2⟩, ?_⟩
      · linear_combination sc.1
      · linear_combination -sc.2.1
      · have := sc.2.2.2; rw [SwState.cel]; linarith
      · have := sc.2.2.1; rw [v1, SwState.cel, v3]; linarith
      · rcases lt_or_ge s 0 with h | h
        · rw [k1 h]; exact h2
        · rw [k2 h, v3]; exact hm
    · have hc := not_lt.1 hc
      obtain ⟨k1, k2, k3⟩ := hr hc
      have e : m.vel dir - 2 * Real.sqrt (g * m.height) = right.vel dir - 2 * Real.sqrt (g * right.height) := by
        rcases hc.lt_or_eq with hc | hc
        · rw [hR, swPhi, if_pos hc]; ring
        · rw [hR, ← hc, swPhi_self]; ring
      have ecel : Real.sqrt (g * m.height) ≤ Real.sqrt (g * right.height) := Real.sqrt_le_sqrt (mul_le_mul_of_nonneg_left hc hg.le)
      have son : m.vel dir + Real.sqrt (g * m.height) ≤ 0 →
          right.vel dir - 2 * right.cel g < 0 ∧ Real.sqrt (g * ((right.vel dir - 2 * right.cel g) * (right.vel dir - 2 * right.cel g) / (9 * g))) = -(right.vel dir - 2 * right.cel g) / 3 := by
        intro h
        have p : right.vel dir - 2 * right.cel g < 0 := by rw [SwState.cel, ← e]; linarith
        refine ⟨p, ?_⟩
        rw [show g * ((right.vel dir - 2 * right.cel g) * (right.vel dir - 2 * right.cel g) / (9 * g)) = (-(right.vel dir - 2 * right.cel g) / 3) ^ 2 by field_simp; ring]
        exact Real.sqrt_sq (by linarith)
      have hpos : right.vel dir - 2 * right.cel g < 0 → 0 < (right.vel dir - 2 * right.cel g) * (right.vel dir - 2 * right.cel g) / (9 * g) := fun p =>
        div_pos (mul_pos_of_neg_of_neg p p) (by linarith)
      refine ⟨Or.inr ⟨hc, ⟨by rw [v1, SwState.cel, v3]; exact e, v2, ?_⟩, k1, fun a b => k2 a ?_, fun a b => ?_⟩, ?_⟩
      · rw [v1, SwState.cel, SwState.cel, v3]; linarith
      · rw [v1, SwState.cel, v3] at b; exact b
      · rw [v1, SwState.cel, v3] at b
        obtain ⟨p, es⟩ := son b
        rw [k3 a b, es]
        have hh := (hpos p).ne'
        rw [(swMk_vel dir _ _ _ hh).1, (swMk_vel dir _ _ _ hh).2]
        have : (SwState.mk' dir ((right.vel dir - 2 * right.cel g) * (right.vel dir - 2 * right.cel g) / (9 * g)) (right.vel dir - 2 * (right.cel g - -(right.vel dir - 2 * right.cel g) / 3))
          (right.vel (dir + 1))).cel g = -(right.vel dir - 2 * right.cel g) / 3 := es
        rw [this]
        exact ⟨by ring, by ring, rfl⟩
      · rcases lt_or_ge (right.vel dir + right.cel g) 0 with h | h
        · rw [k1 h]; exact h2
        · rcases lt_or_ge 0 (m.vel dir + Real.sqrt (g * m.height)) with h' | h'
          · rw [k2 h h', v3]; exact hm
          · rw [k3 h h']; exact hpos (son h').1
  -- the value the code returns
  have codeL : 0 ≤ m.vel dir → SwSampled1 g dir left (swMidL m left dir) (swSample g m left right dir) ∧ 0 < (swSample g m left right dir).height := by
    intro h0
    have h0' : 0 ≤ m.momentum dir / m.height := h0
    refine left1 _ (fun hc => ⟨fun hs => ?_, fun hs => ?_⟩) fun hc => ⟨fun hs => ?_, fun hs hs' => ?_, fun hs hs' => ?_⟩
    · simp only [SwState.vel] at hs
      simp only [swSample, if_pos h0', if_pos hc, if_pos hs]
    · simp only [SwState.vel] at hs
      simp only [swSample, if_pos h0', if_pos hc, if_neg (not_lt.2 hs)]
      exact swMid_eq m left dir hm.ne' _
    · simp only [SwState.vel, SwState.cel] at hs
      simp only [swSample, if_pos h0', if_neg (not_lt.2 hc), if_pos hs]
    · simp only [SwState.vel, SwState.cel] at hs hs'
      simp only [swSample, if_pos h0', if_neg (not_lt.2 hc), if_neg (not_lt.2 hs), if_pos hs']
      exact swMid_eq m left dir hm.ne' _
    · simp only [SwState.vel, SwState.cel] at hs hs'
      simp only [swSample, if_pos h0', if_neg (not_lt.2 hc), if_neg (not_lt.2 hs), if_neg (not_lt.2 hs')]
      rfl
  have codeR : m.vel dir < 0 → SwSampled2 g dir (swMidR m right dir) right (swSample g m left right dir) ∧ 0 < (swSample g m left right dir).height := by
    intro h0
    have h0' : ¬ 0 ≤ m.momentum dir / m.height := not_le.2 h0
    refine right1 _ (fun hc => ⟨fun hs => ?_, fun hs => ?_⟩) fun hc => ⟨fun hs => ?_, fun hs hs' => ?_, fun hs hs' => ?_⟩
    · simp only [SwState.vel] at hs
      simp only [swSample, if_neg h0', if_pos hc, if_pos hs]
    · simp only [SwState.vel] at hs
      simp only [swSample, if_neg h0', if_pos hc, if_neg (not_lt.2 hs)]
      exact swMid_eq m right dir hm.ne' _
    · simp only [SwState.vel, SwState.cel] at hs
      simp only [swSample, if_neg h0', if_neg (not_lt.2 hc), if_pos hs]
    · simp only [SwState.vel, SwState.cel] at hs hs'
      simp only [swSample, if_neg h0', if_neg (not_lt.2 hc), if_neg (not_lt.2 hs), if_pos hs']
      exact swMid_eq m right dir hm.ne' _
    · simp only [SwState.vel, SwState.cel] at hs hs'
      simp only [swSample, if_neg h0', if_neg (not_lt.2 hc), if_neg (not_lt.2 hs), if_neg (not_lt.2 hs')]
      rfl
  refine ⟨?_, ?_, ?_, fun h => (codeL h).1, fun h => (codeR h).1⟩
  · rcases lt_or_ge (m.vel dir) 0 with h | h
    · exact (codeR h).2
    · exact (codeL h).2
  · classical
    refine ⟨if left.height < m.height then (if 0 < (m.height * m.vel dir - left.height * left.vel dir) / (m.height - left.height) then left else swMidL m left dir)
      else if 0 < left.vel dir - left.cel g then left else if m.vel dir - Real.sqrt (g * m.height) < 0 then swMidL m left dir else
        .mk' dir ((left.vel dir + 2 * left.cel g) * (left.vel dir + 2 * left.cel g) / (9 * g))
            (left.vel dir + 2 * (left.cel g - Real.sqrt (g * ((left.vel dir + 2 * left.cel g) * (left.vel dir + 2 * left.cel g) / (9 * g))))) (left.vel (dir + 1)),
      (left1 _ (fun hc => ⟨fun hs => ?_, fun hs => ?_⟩) fun hc => ⟨fun hs => ?_, fun hs hs' => ?_, fun hs hs' => ?_⟩).1⟩
    · rw [if_pos hc, if_pos hs]
    · rw [if_pos hc, if_neg (not_lt.2 hs)]
    · rw [if_neg (not_lt.2 hc), if_pos hs]
    · rw [if_neg (not_lt.2 hc), if_neg (not_lt.2 hs), if_pos hs']
    · rw [if_neg (not_lt.2 hc), if_neg (not_lt.2 hs), if_neg (not_lt.2 hs')]
  · classical
    refine ⟨if right.height < m.height then (if (right.height * right.vel dir - m.height * m.vel dir) / (right.height - m.height) < 0 then right else swMidR m right dir)
      else if right.vel dir + right.cel g < 0 then right else if 0 < m.vel dir + Real.sqrt (g * m.height) then swMidR m right dir else
        .mk' dir ((right.vel dir - 2 * right.cel g) * (right.vel dir - 2 * right.cel g) / (9 * g))
            (right.vel dir - 2 * (right.cel g - Real.sqrt (g * ((right.vel dir - 2 * right.cel g) * (right.vel dir - 2 * right.cel g) / (9 * g))))) (right.vel (dir + 1)),
      (right1 _ (fun hc => ⟨fun hs => ?_, fun hs => ?_⟩) fun hc => ⟨fun hs => ?_, fun hs hs' => ?_, fun hs hs' => ?_⟩).1⟩
    · rw [if_pos hc, if_pos hs]
    · rw [if_pos hc, if_neg (not_lt.2 hs)]
    · rw [if_neg (not_lt.2 hc), if_pos hs]
    · rw [if_neg (not_lt.2 hc), if_neg (not_lt.2 hs), if_pos hs']
    · rw [if_neg (not_lt.2 hc), if_neg (not_lt.2 hs), if_neg (not_lt.2 hs')]

/-- **C52 (whole solver).** Whenever the Newton iteration returns an exact zero with positive height, `SolveRiemannProblem` returns, without failing an assertion, a state of
positive height that is the value of the entropy solution at the interface. -/
theorem sw_riemann_exact (g : ℝ) (hg : 0 < g) (limit : Int) (left right m : SwState) (dir : Fin 2) (h1 : 0 < left.height) (h2 : 0 < right.height)
    (hm : swMiddle g limit left right dir = some m) (hpos : 0 < m.height)
    (hex : swFLeft g (left.vel dir) left.height m.height = swFRight g (right.vel dir) right.height m.height) :
    ∃ q, swSolve g limit left right dir = some q ∧ 0 < q.height ∧
      (∃ w, SwSampled1 g dir left (swMidL m left dir) w) ∧ (∃ w, SwSampled2 g dir (swMidR m right dir) right w) ∧
      (0 ≤ m.vel dir → SwSampled1 g dir left (swMidL m left dir) q) ∧ (m.vel dir < 0 → SwSampled2 g dir (swMidR m right dir) right q) := by
  have hu : m.vel dir = swFLeft g (left.vel dir) left.height m.height := by
    simp only [swMiddle] at hm
    split at hm
    · cases hm
    · obtain rfl := Option.some.inj hm
      simp only [SwState.vel, if_true]
      rw [mul_div_cancel_left₀ _ hpos.ne']
  refine ⟨swSample g m left right dir, by simp only [swSolve, if_pos (And.intro h1 h2), hm, if_pos hpos], ?_⟩
  exact sw_sample_exact g hg m left right dir h1 h2 hpos hu (hu.trans hex)

/-- **C52 (signals of the exact solver).** With an exact middle state, `ComputeSignals` returns the speed of the left shock or of the head of the left rarefaction, the
speed of the right shock or of the head of the right rarefaction, and the velocity of the middle region lies strictly between them. -/
theorem sw_exact_signals (g : ℝ) (hg : 0 < g) (limit : Int) (left right m : SwState) (dir : Fin 2) (h1 : 0 < left.height) (h2 : 0 < right.height)
    (hm : swMiddle g limit left right dir = some m) (hpos : 0 < m.height)
    (hex : swFLeft g (left.vel dir) left.height m.height = swFRight g (right.vel dir) right.height m.height) :
    ∃ s, swExactSignals g limit left right dir = some s ∧ s.1 < m.vel dir ∧ m.vel dir < s.2 ∧
      (left.height < m.height → IsSwShock1 g dir left (swMidL m left dir) s.1) ∧ (m.height ≤ left.height → s.1 = left.vel dir - left.cel g) ∧
      (right.height < m.height → IsSwShock2 g dir (swMidR m right dir) right s.2) ∧ (m.height ≤ right.height → s.2 = right.vel dir + right.cel g) := by
  have hu : m.vel dir = swFLeft g (left.vel dir) left.height m.height := by
    simp only [swMiddle] at hm
    split at hm
    · cases hm
    · obtain rfl := Option.some.inj hm
      simp only [SwState.vel, if_true]
      rw [mul_div_cancel_left₀ _ hpos.ne']
  have hL : m.vel dir = left.vel dir - swPhi g left.height m.height := hu.trans (swFLeft_eq _ _ _ _)
  have hR : m.vel dir = right.vel dir + swPhi g right.height m.height := (hu.trans hex).trans (swFRight_eq _ _ _ _)
  have mm : m.momentum dir = m.height * m.vel dir := by rw [SwState.vel]; field_simp
  have ml : left.momentum dir = left.height * left.vel dir := by rw [SwState.vel]; field_simp
  have mr : right.momentum dir = right.height * right.vel dir := by rw [SwState.vel]; field_simp
  have cM : 0 < Real.sqrt (g * m.height) := Real.sqrt_pos.2 (by positivity)
  have cL : 0 < Real.sqrt (g * left.height) := Real.sqrt_pos.2 (by positivity)
  have cR : 0 < Real.sqrt (g * right.height) := Real.sqrt_pos.2 (by positivity)
  obtain ⟨v1, v2, v3⟩ := swMid_vel m left dir hpos.ne'
  obtain ⟨w1, w2, w3⟩ := swMid_vel m right dir hpos.ne'
  change (swMidR m right dir).vel dir = _ at w1
  change (swMidR m right dir).vel (dir + 1) = _ at w2
  change (swMidR m right dir).height = _ at w3
  have hne : ¬ (m.height ≤ left.height ∧ ¬ 0 < left.height ∨ m.height ≤ right.height ∧ ¬ 0 < right.height) := by
    rintro (h | h)
    · exact h.2 h1
    · exact h.2 h2
  refine ⟨_, by simp only [swExactSignals, hm]; exact if_neg hne, ?_, ?_, fun hc => ?_, fun hc => ?_, fun hc => ?_, fun hc => ?_⟩
  · simp only
    split
    · rename_i hc
      change left.vel dir - Real.sqrt (g * left.height) < _
      rcases hc.lt_or_eq with hc | hc
      · rw [hL, swPhi, if_pos hc]
        have := Real.sqrt_nonneg (g * m.height)
        have := Real.sqrt_lt_sqrt (by positivity) (mul_lt_mul_of_pos_left hc hg)
        linarith
      · rw [hL, ← hc, swPhi_self]; linarith
    · rename_i hc
      have hc := not_le.1 hc
      have sc := sw_shock_scalar (left.vel dir) hg h1 hc
      simp only [← hL] at sc
      rw [mm, ml]
      generalize (m.height * m.vel dir - left.height * left.vel dir) / (m.height - left.height) = s at sc ⊢
      have : 0 < left.height * (left.vel dir - s) := mul_pos h1 (by linarith [sc.2.2.2])
      have : 0 < m.height * (m.vel dir - s) := by linarith [sc.1]
      exact sub_pos.1 (pos_of_mul_pos_right this hpos.le)
  · simp only
    split
    · rename_i hc
      change _ < right.vel dir + Real.sqrt (g * right.height)
      rcases hc.lt_or_eq with hc | hc
      · rw [hR, swPhi, if_pos hc]
        have := Real.sqrt_lt_sqrt (by positivity) (mul_lt_mul_of_pos_left hc hg)
        linarith
      · rw [hR, ← hc, swPhi_self]; linarith
    · rename_i hc
      have hc := not_le.1 hc
      have sc := sw_shock_scalar (-right.vel dir) hg h2 hc
      have en : -right.vel dir - swPhi g right.height m.height = -m.vel dir := by rw [hR]; ring
      simp only [en] at sc
      have es : (m.height * -m.vel dir - right.height * -right.vel dir) / (m.height - right.height) =
          -((right.momentum dir - m.momentum dir) / (right.height - m.height)) := by
        rw [mm, mr, ← neg_sub right.height m.height, div_neg]; congr 2; ring
      rw [es] at sc
      generalize (right.momentum dir - m.momentum dir) / (right.height - m.height) = s at sc ⊢
      have : 0 < right.height * (s - right.vel dir) := mul_pos h2 (by linarith [sc.2.2.2])
      have : 0 < m.height * (s - m.vel dir) := by linarith [sc.1]
      exact sub_pos.1 (pos_of_mul_pos_right this hpos.le)
  · simp only [if_neg (not_le.2 hc), mm, ml]
    have sc := sw_shock_scalar (left.vel dir) hg h1 hc
    simp only [← hL] at sc
    refine ⟨sw_jump dir _ _ v3 rfl hpos.ne' h1.ne' v1 rfl v2 rfl sc.1 sc.2.1, ?_, sc.2.2.2⟩
    rw [v1, SwState.cel, v3]; exact sc.2.2.1
  · simp only [if_pos hc]; rfl
  · simp only [if_neg (not_le.2 hc)]
    have sc := sw_shock_scalar (-right.vel dir) hg h2 hc
    have en : -right.vel dir - swPhi g right.height m.height = -m.vel dir := by rw [hR]; ring
    simp only [en] at sc
    have es : (m.height * -m.vel dir - right.height * -right.vel dir) / (m.height - right.height) =
        -((right.momentum dir - m.momentum dir) / (right.height - m.height)) := by
      rw [mm, mr, ← neg_sub right.height m.height, div_neg]; congr 2; ring
    rw [es] at sc
    generalize (right.momentum dir - m.momentum dir) / (right.height - m.height) = s at sc ⊢
    refine ⟨sw_jump dir _ _ rfl w3 h2.ne' hpos.ne' rfl w1 rfl w2 ?_ ?_, ?_, ?_⟩
    · linear_combination sc.1
    · linear_combination -sc.2.1
    · have := sc.2.2.2; rw [SwState.cel]; linarith
    · have := sc.2.2.1; rw [w1, SwState.cel, w3]; linarith
  · simp only [if_pos hc]; rfl

/-- **C52 (consistency).** The exact solver returns the common state if both sides are equal, for every iteration limit. -/
theorem sw_solver_consistent (g : ℝ) (hg : 0 < g) (limit : Int) (q : SwState) (dir : Fin 2) (h : 0 < q.height) : swSolve g limit q q dir = some q := by
  have hz : swF g (q.momentum dir / q.height) q.height (q.momentum dir / q.height) q.height q.height = 0 := by rw [swF_eq, swPhi_self]; ring
  have hx : 1 / 2 * (q.height + q.height) = q.height := by ring
  have hmid : swMiddle g limit q q dir = some ⟨q.height, fun i => if i = dir then q.momentum dir else 0⟩ := by
    simp only [swMiddle, hx, newton_fixed _ _ q.height (1 / 10 ^ 7) limit (by norm_num) hz]
    rw [swFLeft_eq, swPhi_self, sub_zero, mul_div_cancel₀ _ h.ne']
  have hc : 0 < Real.sqrt (g * q.height) := Real.sqrt_pos.2 (by positivity)
  have hcc : Real.sqrt (g * q.height) ^ 2 = g * q.height := Real.sq_sqrt (by positivity)
  have hmom : ∀ a : ℝ, a = q.momentum (dir + 1) → (⟨q.height, fun i => if i = dir + 1 then a else if i = dir then q.momentum dir else 0⟩ : SwState) = q := by
    intro a ha
    cases q with
    | mk hh mm =>
      simp only [SwState.mk.injEq, true_and]
      funext i
      rcases fin2_cases dir i with rfl | rfl
      · rw [if_neg (fin2_succ_ne i).symm, if_pos rfl]
      · rw [if_pos rfl]; exact ha
  have e1 : q.height * (q.momentum (dir + 1) / q.height) = q.momentum (dir + 1) := mul_div_cancel₀ _ h.ne'
  have hson : ∀ hh u : ℝ, hh = q.height → u = q.momentum dir / q.height →
      (⟨hh, fun i => if i = dir then hh * u else hh * (q.momentum (dir + 1) / q.height)⟩ : SwState) = q := by
    rintro _ _ rfl rfl
    cases q with
    | mk hh mm =>
      simp only [SwState.mk.injEq, true_and] at *
      funext i
      rcases fin2_cases dir i with rfl | rfl
      · rw [if_pos rfl]; field_simp
      · rw [if_neg (fin2_succ_ne dir)]; field_simp
  simp only [swSolve, if_pos (And.intro h h), hmid, if_pos h]
  congr 1
  simp only [swSample, if_true, lt_irrefl, if_false]
  generalize hu : q.momentum dir / q.height = u at *
  generalize Real.sqrt (g * q.height) = c at *
  split_ifs with a1 a2 a3 a4 a5
  · rfl
  · exact hmom _ e1
  · have : u = c := by linarith
    subst this
    have hh : (u + 2 * u) * (u + 2 * u) / (9 * g) = q.height := by
      rw [div_eq_iff (by positivity)]; linear_combination 9 * hcc
    refine hson _ _ hh ?_
    rw [hh, show Real.sqrt (g * q.height) = u by rw [← hcc]; exact Real.sqrt_sq hc.le]; ring
  · rfl
  · exact hmom _ e1
  · have : u = -c := by linarith
    subst this
    have hh : (-c - 2 * c) * (-c - 2 * c) / (9 * g) = q.height := by
      rw [div_eq_iff (by positivity)]; linear_combination 9 * hcc
    refine hson _ _ hh ?_
    rw [hh, show Real.sqrt (g * q.height) = c by rw [← hcc]; exact Real.sqrt_sq hc.le]; ring

/-- Flowing water meets the hypotheses: equal states with height 2 and velocity 3. -/
example : ∃ m, swMiddle 10 5000 ⟨2, ![6, 1]⟩ ⟨2, ![6, 1]⟩ 0 = some m ∧ 0 < m.height ∧
    swFLeft 10 3 2 m.height = swFRight 10 3 2 m.height := by
  have hz : swF 10 (6 / 2) 2 (6 / 2) 2 2 = 0 := by rw [swF_eq, swPhi_self]; ring
  refine ⟨⟨2, fun i => if i = 0 then 2 * swFLeft 10 (6 / 2) 2 2 else 0⟩, ?_, by norm_num, by rw [swFLeft_eq, swFRight_eq, swPhi_self]; ring⟩
  have := newton_fixed _ (swDF 10 2 2) 2 (1 / 10 ^ 7) 5000 (by norm_num) hz
  simp only [swMiddle, Matrix.cons_val_zero]
  norm_num at this ⊢
  rw [this]

/-! ### HLL -/

/-- **C53 (signals).** The signal velocities bound the characteristic speeds of both states and enclose zero. -/
theorem sw_signals (g : ℝ) (hg : 0 < g) (dir : Fin 2) (l r : SwState) (hl : 0 < l.height) :
    (swSignals g dir l r).1 ≤ 0 ∧ 0 ≤ (swSignals g dir l r).2 ∧ (swSignals g dir l r).1 < (swSignals g dir l r).2 ∧
    (∀ q ∈ [l, r], (swSignals g dir l r).1 ≤ q.vel dir - q.cel g ∧ q.vel dir + q.cel g ≤ (swSignals g dir l r).2) := by
  have hc : 0 < Real.sqrt (g * l.height) := Real.sqrt_pos.2 (by positivity)
  have a1 : (swSignals g dir l r).1 ≤ l.vel dir - l.cel g := (min_le_left _ _).trans (min_le_left _ _)
  have a2 : (swSignals g dir l r).1 ≤ r.vel dir - r.cel g := (min_le_left _ _).trans (min_le_right _ _)
  have b1 : l.vel dir + l.cel g ≤ (swSignals g dir l r).2 := (le_max_left _ _).trans (le_max_left _ _)
  have b2 : r.vel dir + r.cel g ≤ (swSignals g dir l r).2 := (le_max_right _ _).trans (le_max_left _ _)
  refine ⟨min_le_right _ _, le_max_right _ _, ?_, ?_⟩
  · simp only [SwState.cel] at a1 b1; linarith
  · intro q hq
    simp only [List.mem_cons, List.not_mem_nil, or_false] at hq
    rcases hq with rfl | rfl
    · exact ⟨a1, b1⟩
    · exact ⟨a2, b2⟩

/-- The height component of the HLL flux, written with a positive intermediate height. -/
theorem sw_hll_middle (g : ℝ) (hg : 0 < g) (dir : Fin 2) (l r : SwState) (hl : 0 < l.height) (hr : 0 < r.height) :
    ∃ f m, hllFlux (swEqn g dir) (swSignals g dir) l r = some f ∧ 0 < m ∧
      f .height = l.momentum dir + (swSignals g dir l r).1 * (m - l.height) ∧
      f .height = r.momentum dir + (swSignals g dir l r).2 * (m - r.height) := by
  obtain ⟨h1, h2, h3, h4⟩ := sw_signals g hg dir l r hl
  have kl := (h4 l (by simp)).1
  have kr := (h4 r (by simp)).2
  have cl : 0 < l.cel g := Real.sqrt_pos.2 (by positivity)
  have cr : 0 < r.cel g := Real.sqrt_pos.2 (by positivity)
  have ml : l.momentum dir = l.height * l.vel dir := by rw [SwState.vel]; field_simp
  have mr : r.momentum dir = r.height * r.vel dir := by rw [SwState.vel]; field_simp
  generalize hs : swSignals g dir l r = s at *
  have hd : 0 < max 0 s.2 - min 0 s.1 := by rw [max_eq_right h2, min_eq_right h1]; linarith
  refine ⟨_, ((s.2 * r.height - r.momentum dir) + (l.momentum dir - s.1 * l.height)) / (s.2 - s.1), by simp only [hllFlux, hs]; exact if_pos hd, ?_, ?_, ?_⟩
  · apply div_pos _ (by linarith)
    rw [ml, mr]
    have := mul_pos hr (show 0 < s.2 - r.vel dir by linarith)
    have := mul_pos hl (show 0 < l.vel dir - s.1 by linarith)
    nlinarith
  · simp only [max_eq_right h2, min_eq_right h1]
    show (s.2 * l.momentum dir - s.1 * r.momentum dir + s.1 * s.2 * (r.height - l.height)) / (s.2 - s.1) = _
    have : s.2 - s.1 ≠ 0 := by linarith
    field_simp; ring
  · simp only [max_eq_right h2, min_eq_right h1]
    show (s.2 * l.momentum dir - s.1 * r.momentum dir + s.1 * s.2 * (r.height - l.height)) / (s.2 - s.1) = _
    have : s.2 - s.1 ≠ 0 := by linarith
    field_simp; ring

/-- **C53 (one step).** With at most half of the stable time step reported at each face, a first order HLL step on states of positive height
does not fail and keeps all heights positive. -/
theorem sw_hll_step_positive (g : ℝ) (hg : 0 < g) (dir : Fin 2) (dt dx : ℝ) (hdx : 0 < dx) (hdt : 0 ≤ dt) (u : ℤ → SwState) (hu : ∀ i, 0 < (u i).height)
    (hcfl : ∀ i, ((2 * dt : ℝ) : WithTop ℝ) ≤ signalDt [(swSignals g dir (u (i - 1)) (u i)).1, (swSignals g dir (u (i - 1)) (u i)).2] dx) (i : ℤ) :
    ∃ q, swHllStep g dir dt dx u i = some q ∧ 0 < q.height := by
  obtain ⟨fL, mL, e1, a1, -, k1⟩ := sw_hll_middle g hg dir (u (i - 1)) (u i) (hu _) (hu _)
  obtain ⟨fR, mR, e2, a2, k2, -⟩ := sw_hll_middle g hg dir (u i) (u (i + 1)) (hu _) (hu _)
  have c1 := dt_of_face (hcfl i) (maxSignal_two_nonneg _ _) hdx
  have c2 := dt_of_face (hcfl (i + 1)) (maxSignal_two_nonneg _ _) hdx
  rw [add_sub_cancel_right] at c2
  obtain ⟨-, R0, -, -⟩ := sw_signals g hg dir (u (i - 1)) (u i) (hu _)
  obtain ⟨L0, -, -, -⟩ := sw_signals g hg dir (u i) (u (i + 1)) (hu _)
  have b1 : (swSignals g dir (u (i - 1)) (u i)).2 ≤ maxSignal [(swSignals g dir (u (i - 1)) (u i)).1, (swSignals g dir (u (i - 1)) (u i)).2] := by
    simp only [maxSignal, List.foldl_cons, List.foldl_nil]; exact le_max_of_le_right (le_abs_self _)
  have b2 : -(swSignals g dir (u i) (u (i + 1))).1 ≤ maxSignal [(swSignals g dir (u i) (u (i + 1))).1, (swSignals g dir (u i) (u (i + 1))).2] := by
    simp only [maxSignal, List.foldl_cons, List.foldl_nil]; exact le_max_of_le_left (le_max_of_le_right (neg_le_abs _))
  generalize (swSignals g dir (u (i - 1)) (u i)).2 = R at *
  generalize (swSignals g dir (u i) (u (i + 1))).1 = L at *
  have lam : 0 ≤ dt / dx := div_nonneg hdt hdx.le
  have hsum : dt / dx * (R + -L) ≤ 1 := by
    rw [div_mul_eq_mul_div, div_le_one hdx]
    nlinarith [mul_le_mul_of_nonneg_left b1 hdt, mul_le_mul_of_nonneg_left b2 hdt]
  refine ⟨_, by simp only [swHllStep, e1, e2]; rfl, ?_⟩
  show 0 < (u i).height + dt / dx * (fL .height - fR .height)
  have e : (u i).height + dt / dx * (fL .height - fR .height) = (1 - dt / dx * (R + -L)) * (u i).height + dt / dx * R * mL + dt / dx * -L * mR := by
    rw [k1, k2]; ring
  rw [e]
  have p2 : 0 ≤ dt / dx * R * mL := by positivity
  have p3 : 0 ≤ dt / dx * -L * mR := mul_nonneg (mul_nonneg lam (by linarith)) a2.le
  rcases hsum.lt_or_eq with h | h
  · have := mul_pos (sub_pos.2 h) (hu i); linarith
  · have p1 : 0 ≤ (1 - dt / dx * (R + -L)) * (u i).height := mul_nonneg (by linarith) (hu i).le
    by_contra hn
    have z2 : dt / dx * R * mL = 0 := by linarith
    have z3 : dt / dx * -L * mR = 0 := by linarith
    have z2 := (mul_eq_zero.1 z2).resolve_right a1.ne'
    have z3 := (mul_eq_zero.1 z3).resolve_right a2.ne'
    linarith

/-- A dam break meets the hypotheses of the step theorem: heights 4 and 1 at rest, `g = 4`, `dx = 1` and `dt = 1/8`. -/
example : let u : ℤ → SwState := fun i => if i < 0 then ⟨4, ![0, 0]⟩ else ⟨1, ![0, 0]⟩
    (∀ i, 0 < (u i).height) ∧ ∀ i, ((2 * (1 / 8) : ℝ) : WithTop ℝ) ≤ signalDt [(swSignals 4 0 (u (i - 1)) (u i)).1, (swSignals 4 0 (u (i - 1)) (u i)).2] 1 := by
  intro u
  have hu : ∀ i, (u i).height = 4 ∨ (u i).height = 1 := by intro i; by_cases h : i < 0 <;> simp [u, h]
  have hm : ∀ i, (u i).momentum 0 = 0 := by intro i; by_cases h : i < 0 <;> simp [u, h]
  have hc : ∀ i, 0 ≤ Real.sqrt (4 * (u i).height) ∧ Real.sqrt (4 * (u i).height) ≤ 4 := by
    intro i
    refine ⟨Real.sqrt_nonneg _, ?_⟩
    rw [Real.sqrt_le_left (by norm_num)]
    rcases hu i with h | h <;> rw [h] <;> norm_num
  refine ⟨fun i => by rcases hu i with h | h <;> rw [h] <;> norm_num, fun i => ?_⟩
  have hb : maxSignal [(swSignals 4 0 (u (i - 1)) (u i)).1, (swSignals 4 0 (u (i - 1)) (u i)).2] ≤ 4 := by
    have a := hc (i - 1)
    have b := hc i
    simp only [maxSignal, List.foldl_cons, List.foldl_nil, swSignals, hm, zero_div, zero_sub, zero_add]
    refine max_le (max_le (by norm_num) (abs_le.2 ⟨le_min (le_min (by linarith) (by linarith)) (by norm_num), min_le_of_right_le (by norm_num)⟩))
      (abs_le.2 ⟨le_max_of_le_right (by norm_num), max_le (max_le (by linarith) (by linarith)) (by norm_num)⟩)
  simp only [signalDt]
  split
  · exact le_top
  · rename_i h0
    rw [WithTop.coe_le_coe, le_div_iff₀ (lt_of_le_of_ne (maxSignal_two_nonneg _ _) (Ne.symm h0))]
    linarith

end Fub
