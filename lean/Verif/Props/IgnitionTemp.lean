import Verif.Props.Kinetics
import Mathlib.Analysis.Calculus.Deriv.MeanValue
import Mathlib.Analysis.Calculus.Deriv.Inv
import Mathlib.Analysis.SpecialFunctions.ExpDeriv
import Mathlib.Topology.Order.IntermediateValue

/-!
# C76: the temperature for a given ignition delay
-/

namespace Fub
open Set

/-- The constants are physical: positive heat release, activation energy, frequency factor and tolerance, `gamma` above one. -/
structure DelayOk (gamma : ℝ) (o : ArrheniusOptions) (eps : ℝ) : Prop where
  gamma : 1 < gamma
  Q : 0 < o.Q
  EA : 0 < o.EA
  B : 0 < o.B
  eps : 0 < eps

/-- The delay in the variable `T` without divisions by the temperature outside of the exponential. -/
theorem ignitionDelay_eq (gamma : ℝ) (o : ArrheniusOptions) (Y eps : ℝ) (h : DelayOk gamma o eps) (T : ℝ) (hT : T ≠ 0) :
    ignitionDelay gamma o Y T eps = 1 / ((gamma - 1) * o.Q * max Y eps * o.B * o.EA) *
      (T ^ 2 * (1 + (2 + T / ((gamma - 1) * o.Q * max Y eps)) * (T / o.EA)) * Real.exp (-o.EA * (1 - 1 / T))) := by
  have h1 : 0 < gamma - 1 := by linarith [h.gamma]
  have h2 := h.Q; have h3 := h.EA; have h4 := h.B
  have h5 : 0 < max Y eps := lt_max_of_lt_right h.eps
  unfold ignitionDelay
  simp only
  rw [neg_mul, Real.exp_neg]
  have := (Real.exp_pos (o.EA * (1 - 1 / T))).ne'
  generalize Real.exp (o.EA * (1 - 1 / T)) = e at *
  generalize max Y eps = m at *
  field_simp

/-- **C76 (derivative).** The derivative used by the Newton iteration is the derivative of the ignition delay, if the fuel fraction is at least `eps`. -/
theorem ignitionDelay_hasDerivAt (gamma : ℝ) (o : ArrheniusOptions) (Y eps : ℝ) (h : DelayOk gamma o eps) (hY : eps ≤ Y) (T : ℝ) (hT : T ≠ 0) :
    HasDerivAt (fun T => ignitionDelay gamma o Y T eps) (ignitionDelayDeriv gamma o Y T eps) T := by
  have h1 : 0 < gamma - 1 := by linarith [h.gamma]
  have h2 := h.Q; have h3 := h.EA; have h4 := h.B
  have h5 : 0 < Y := lt_of_lt_of_le h.eps hY
  have hm : max Y eps = Y := max_eq_left hY
  have e1 : HasDerivAt (fun T : ℝ => T⁻¹) (-(T ^ 2)⁻¹) T := hasDerivAt_inv hT
  have e2 : HasDerivAt (fun T : ℝ => Real.exp (-o.EA * (1 - T⁻¹))) (Real.exp (-o.EA * (1 - T⁻¹)) * (-o.EA * (-(-(T ^ 2)⁻¹)))) T :=
    ((e1.const_sub 1).const_mul (-o.EA)).exp
  have e3 : HasDerivAt (fun T : ℝ => T ^ 2 * (1 + (2 + T / ((gamma - 1) * o.Q * Y)) * (T / o.EA)))
      ((2 * T) * (1 + (2 + T / ((gamma - 1) * o.Q * Y)) * (T / o.EA)) + T ^ 2 * (1 / ((gamma - 1) * o.Q * Y) * (T / o.EA) + (2 + T / ((gamma - 1) * o.Q * Y)) * (1 / o.EA))) T := by
    have a1 : HasDerivAt (fun T : ℝ => T ^ 2) (2 * T) T := by simpa using hasDerivAt_pow 2 T
    have a2 : HasDerivAt (fun T : ℝ => 2 + T / ((gamma - 1) * o.Q * Y)) (1 / ((gamma - 1) * o.Q * Y)) T := ((hasDerivAt_id T).div_const _).const_add 2
    have a3 : HasDerivAt (fun T : ℝ => T / o.EA) (1 / o.EA) T := (hasDerivAt_id T).div_const _
    exact a1.mul ((a2.mul a3).const_add 1)
  have e4 := (e3.mul e2).const_mul (1 / ((gamma - 1) * o.Q * Y * o.B * o.EA))
  have key : HasDerivAt (fun T => ignitionDelay gamma o Y T eps) _ T := e4.congr_of_eventuallyEq (by
    filter_upwards [isOpen_ne.mem_nhds hT] with x hx
    rw [ignitionDelay_eq gamma o Y eps h x hx, hm]
    simp only [one_div, Pi.mul_apply])
  convert key using 1
  unfold ignitionDelayDeriv
  simp only
  rw [hm, one_div T]
  generalize Real.exp (-o.EA * (1 - T⁻¹)) = e
  field_simp
  ring

/-- **C76 (derivative), false for little fuel.** If the fuel fraction is below `eps`, the code's derivative is too large by the factor `eps / Y`: the delay uses `max(Y, eps)` throughout, the
derivative only once. -/
theorem ignitionDelay_deriv_wrong (gamma : ℝ) (o : ArrheniusOptions) (Y eps : ℝ) (h : DelayOk gamma o eps) (hY0 : 0 < Y) (hY : Y < eps) (T : ℝ) (hT : T ≠ 0) :
    HasDerivAt (fun T => ignitionDelay gamma o Y T eps) (ignitionDelayDeriv gamma o Y T eps / (eps / Y)) T := by
  have h1 : 0 < gamma - 1 := by linarith [h.gamma]
  have h2 := h.Q; have h3 := h.EA; have h4 := h.B; have h5 := h.eps
  have e := ignitionDelay_hasDerivAt gamma o eps eps h le_rfl T hT
  have hf : (fun T => ignitionDelay gamma o Y T eps) = (fun T => ignitionDelay gamma o eps T eps) := by
    funext T; unfold ignitionDelay; rw [max_eq_right hY.le, max_self]
  rw [hf]
  convert e using 1
  unfold ignitionDelayDeriv
  simp only
  rw [max_eq_right hY.le, max_self]
  field_simp

/-- The code's derivative with the constants collected. -/
theorem ignitionDelayDeriv_eq (gamma : ℝ) (o : ArrheniusOptions) (Y eps : ℝ) (h : DelayOk gamma o eps) (hY : eps ≤ Y) (T : ℝ) :
    ignitionDelayDeriv gamma o Y T eps = -(1 / (o.B * (gamma - 1) * o.Q * Y) *
      (Real.exp (-o.EA * (1 - 1 / T)) * ((1 - 6 * (T / o.EA) ^ 2) + o.EA / ((gamma - 1) * o.Q * Y) * (T / o.EA) ^ 2 * (1 - 4 * (T / o.EA))))) := by
  have h1 : 0 < gamma - 1 := by linarith [h.gamma]
  have h2 := h.Q; have h3 := h.EA; have h4 := h.B
  have h5 : 0 < Y := lt_of_lt_of_le h.eps hY
  unfold ignitionDelayDeriv
  simp only
  rw [max_eq_left hY]
  generalize Real.exp (-o.EA * (1 - 1 / T)) = e
  field_simp
  ring

/-- The derivative is negative up to a quarter of the activation energy. -/
theorem ignitionDelayDeriv_neg (gamma : ℝ) (o : ArrheniusOptions) (Y eps : ℝ) (h : DelayOk gamma o eps) (hY : eps ≤ Y) (T : ℝ) (hT : 0 < T) (hE : T ≤ o.EA / 4) :
    ignitionDelayDeriv gamma o Y T eps < 0 := by
  have h1 : 0 < gamma - 1 := by linarith [h.gamma]
  have h2 := h.Q; have h3 := h.EA; have h4 := h.B
  have h5 : 0 < Y := lt_of_lt_of_le h.eps hY
  rw [ignitionDelayDeriv_eq gamma o Y eps h hY, neg_lt_zero]
  have x0 : 0 < T / o.EA := div_pos hT h3
  have x1 : T / o.EA ≤ 1 / 4 := by rw [div_le_iff₀ h3]; linarith
  have := Real.exp_pos (-o.EA * (1 - 1 / T))
  have k : 0 ≤ o.EA / ((gamma - 1) * o.Q * Y) * (T / o.EA) ^ 2 * (1 - 4 * (T / o.EA)) := mul_nonneg (by positivity) (by linarith)
  have k2 : 0 < 1 - 6 * (T / o.EA) ^ 2 := by nlinarith
  positivity

/-- The derivative does not decrease there: the delay is convex. -/
theorem ignitionDelayDeriv_mono (gamma : ℝ) (o : ArrheniusOptions) (Y eps : ℝ) (h : DelayOk gamma o eps) (hY : eps ≤ Y) :
    MonotoneOn (fun T => ignitionDelayDeriv gamma o Y T eps) (Ioc 0 (o.EA / 4)) := by
  have h1 : 0 < gamma - 1 := by linarith [h.gamma]
  have h2 := h.Q; have h3 := h.EA; have h4 := h.B
  have h5 : 0 < Y := lt_of_lt_of_le h.eps hY
  set k := o.EA / ((gamma - 1) * o.Q * Y) with hk
  have hk0 : 0 < k := by positivity
  have hd : ∀ T : ℝ, 0 < T → HasDerivAt (fun T : ℝ => Real.exp (-o.EA * (1 - T⁻¹)) * ((1 - 6 * (T / o.EA) ^ 2) + k * (T / o.EA) ^ 2 * (1 - 4 * (T / o.EA))))
      (Real.exp (-o.EA * (1 - T⁻¹)) * (-o.EA * (-(-(T ^ 2)⁻¹))) * ((1 - 6 * (T / o.EA) ^ 2) + k * (T / o.EA) ^ 2 * (1 - 4 * (T / o.EA))) +
        Real.exp (-o.EA * (1 - T⁻¹)) * (-(6 * (2 * (T / o.EA) * (1 / o.EA))) + (k * (2 * (T / o.EA) * (1 / o.EA)) * (1 - 4 * (T / o.EA)) + k * (T / o.EA) ^ 2 * (-(4 * (1 / o.EA)))))) T := by
    intro T hT
    have e1 : HasDerivAt (fun T : ℝ => T⁻¹) (-(T ^ 2)⁻¹) T := hasDerivAt_inv hT.ne'
    have e2 : HasDerivAt (fun T : ℝ => Real.exp (-o.EA * (1 - T⁻¹))) (Real.exp (-o.EA * (1 - T⁻¹)) * (-o.EA * (-(-(T ^ 2)⁻¹)))) T :=
      ((e1.const_sub 1).const_mul (-o.EA)).exp
    have a3 : HasDerivAt (fun T : ℝ => T / o.EA) (1 / o.EA) T := (hasDerivAt_id T).div_const _
    have a4 : HasDerivAt (fun T : ℝ => (T / o.EA) ^ 2) (2 * (T / o.EA) * (1 / o.EA)) T := by simpa using a3.fun_pow 2
    exact e2.mul (((a4.const_mul 6).const_sub 1).add ((a4.const_mul k).mul ((a3.const_mul 4).const_sub 1)))
  have hanti : AntitoneOn (fun T : ℝ => Real.exp (-o.EA * (1 - T⁻¹)) * ((1 - 6 * (T / o.EA) ^ 2) + k * (T / o.EA) ^ 2 * (1 - 4 * (T / o.EA)))) (Ioc 0 (o.EA / 4)) := by
    refine antitoneOn_of_deriv_nonpos (convex_Ioc _ _) (fun T hT => (hd T hT.1).continuousAt.continuousWithinAt) (fun T hT => ?_) (fun T hT => ?_)
    · rw [interior_Ioc] at hT
      exact (hd T hT.1).differentiableAt.differentiableWithinAt
    · rw [interior_Ioc] at hT
      rw [(hd T hT.1).deriv]
      have x0 : 0 < T / o.EA := div_pos hT.1 h3
      have x1 : T / o.EA < 1 / 4 := by rw [div_lt_iff₀ h3]; linarith [hT.2]
      have hTx : T = o.EA * (T / o.EA) := by field_simp
      have he := Real.exp_pos (-o.EA * (1 - T⁻¹))
      generalize Real.exp (-o.EA * (1 - T⁻¹)) = e at *
      generalize T / o.EA = x at *
      rw [hTx]
      have : e * (-o.EA * -(-((o.EA * x) ^ 2)⁻¹)) * (1 - 6 * x ^ 2 + k * x ^ 2 * (1 - 4 * x)) +
          e * (-(6 * (2 * x * (1 / o.EA))) + (k * (2 * x * (1 / o.EA)) * (1 - 4 * x) + k * x ^ 2 * -(4 * (1 / o.EA)))) =
          -(e / o.EA / x ^ 2 * ((1 - 6 * x ^ 2 + 12 * x ^ 3) + k * x ^ 2 * (1 - 6 * x + 12 * x ^ 2))) := by
        field_simp; ring
      rw [this, neg_nonpos]
      have p1 : 0 ≤ 1 - 6 * x ^ 2 + 12 * x ^ 3 := by have : 0 < x ^ 3 := by positivity
                                                     nlinarith
      have p2 : 0 ≤ 1 - 6 * x + 12 * x ^ 2 := by nlinarith [sq_nonneg (4 * x - 1)]
      positivity
  intro a ha b hb hab
  simp only
  rw [ignitionDelayDeriv_eq gamma o Y eps h hY, ignitionDelayDeriv_eq gamma o Y eps h hY, neg_le_neg_iff]
  have := hanti ha hb hab
  simp only [one_div a, one_div b]
  simp only at this
  exact mul_le_mul_of_nonneg_left this (by positivity)

/-- **C76 (uniqueness).** The delay decreases strictly with the temperature. -/
theorem ignitionDelay_strictAnti (gamma : ℝ) (o : ArrheniusOptions) (Y eps : ℝ) (h : DelayOk gamma o eps) (hY : eps ≤ Y) :
    StrictAntiOn (fun T => ignitionDelay gamma o Y T eps) (Ioc 0 (o.EA / 4)) := by
  refine strictAntiOn_of_deriv_neg (convex_Ioc _ _) (fun T hT => (ignitionDelay_hasDerivAt gamma o Y eps h hY T hT.1.ne').continuousAt.continuousWithinAt) (fun T hT => ?_)
  rw [interior_Ioc] at hT
  rw [(ignitionDelay_hasDerivAt gamma o Y eps h hY T hT.1.ne').deriv]
  exact ignitionDelayDeriv_neg gamma o Y eps h hY T hT.1 hT.2.le

/-- Chords lie between the tangents. -/
theorem ignitionDelay_chord (gamma : ℝ) (o : ArrheniusOptions) (Y eps : ℝ) (h : DelayOk gamma o eps) (hY : eps ≤ Y) (a b : ℝ) (ha : 0 < a) (hab : a ≤ b) (hb : b ≤ o.EA / 4) :
    ignitionDelayDeriv gamma o Y a eps * (b - a) ≤ ignitionDelay gamma o Y b eps - ignitionDelay gamma o Y a eps ∧
      ignitionDelay gamma o Y b eps - ignitionDelay gamma o Y a eps ≤ ignitionDelayDeriv gamma o Y b eps * (b - a) := by
  rcases hab.eq_or_lt with rfl | hlt
  · simp
  have hd : ∀ x ∈ Icc a b, HasDerivAt (fun T => ignitionDelay gamma o Y T eps) (ignitionDelayDeriv gamma o Y x eps) x := fun x hx =>
    ignitionDelay_hasDerivAt gamma o Y eps h hY x (by linarith [hx.1])
  obtain ⟨c, hc, hc'⟩ := exists_hasDerivAt_eq_slope (fun T => ignitionDelay gamma o Y T eps) (fun T => ignitionDelayDeriv gamma o Y T eps) hlt
    (fun x hx => (hd x hx).continuousAt.continuousWithinAt) (fun x hx => hd x ⟨hx.1.le, hx.2.le⟩)
  have hm := ignitionDelayDeriv_mono gamma o Y eps h hY
  have hba : 0 < b - a := by linarith
  have h1 := hm (a := a) ⟨ha, by linarith⟩ (b := c) ⟨by linarith [hc.1], by linarith [hc.2]⟩ hc.1.le
  have h2 := hm (a := c) ⟨by linarith [hc.1], by linarith [hc.2]⟩ (b := b) ⟨by linarith, hb⟩ hc.2.le
  simp only at h1 h2 hc'
  rw [eq_div_iff hba.ne'] at hc'
  rw [← hc']
  exact ⟨mul_le_mul_of_nonneg_right h1 hba.le, mul_le_mul_of_nonneg_right h2 hba.le⟩

/-- **C76 (result).** Whenever the search returns, the temperature it returns has the requested delay up to the tolerance. -/
theorem temperatureForDelay_sound (gamma : ℝ) (o : ArrheniusOptions) (tign Y eps : ℝ) (n : ℕ) (T0 T : ℝ) (h : temperatureForDelay gamma o tign Y eps n T0 = some T) :
    |ignitionDelay gamma o Y T eps - tign| ≤ eps := by
  induction n generalizing T0 with
  | zero =>
    unfold temperatureForDelay at h
    split_ifs at h with hc
    · cases h; exact not_lt.1 hc
  | succ n ih =>
    unfold temperatureForDelay at h
    split_ifs at h with hc
    · exact ih _ h
    · cases h; exact not_lt.1 hc

/-- **C76 (termination), the part that holds.** Started at a temperature with a longer delay than requested, and if the requested delay is taken at a temperature up to a quarter of the
activation energy, the search ends and returns a temperature between the start and the one temperature `r` with the requested delay, at most `eps` over the slope below it. -/
theorem temperatureForDelay_partial (gamma : ℝ) (o : ArrheniusOptions) (tign Y eps : ℝ) (h : DelayOk gamma o eps) (hY : eps ≤ Y) (T0 T1 : ℝ) (h0 : 0 < T0) (h01 : T0 ≤ T1)
    (h1 : T1 ≤ o.EA / 4) (ht0 : tign ≤ ignitionDelay gamma o Y T0 eps) (ht1 : ignitionDelay gamma o Y T1 eps ≤ tign) :
    ∃ r ∈ Icc T0 T1, ignitionDelay gamma o Y r eps = tign ∧ (∀ r' ∈ Ioc 0 (o.EA / 4), ignitionDelay gamma o Y r' eps = tign → r' = r) ∧
      ∃ N T, (∀ n, N ≤ n → temperatureForDelay gamma o tign Y eps n T0 = some T) ∧ T0 ≤ T ∧ T ≤ r ∧ r - T ≤ eps / -ignitionDelayDeriv gamma o Y r eps := by
  have hcont : ContinuousOn (fun T => ignitionDelay gamma o Y T eps) (Icc T0 T1) := fun x hx =>
    (ignitionDelay_hasDerivAt gamma o Y eps h hY x (by linarith [hx.1])).continuousAt.continuousWithinAt
  obtain ⟨r, hr, hr'⟩ := intermediate_value_Icc' h01 hcont ⟨ht1, ht0⟩
  simp only at hr'
  have hrE : r ≤ o.EA / 4 := hr.2.trans h1
  have hr0 : 0 < r := lt_of_lt_of_le h0 hr.1
  refine ⟨r, hr, hr', fun r' h2 h3 => (ignitionDelay_strictAnti gamma o Y eps h hY).injOn h2 ⟨hr0, hrE⟩ (h3.trans hr'.symm), ?_⟩
  have hslope0 := ignitionDelayDeriv_neg gamma o Y eps h hY T0 h0 (by linarith)
  set δ := eps / -ignitionDelayDeriv gamma o Y T0 eps with hδ
  have hδ0 : 0 < δ := div_pos h.eps (by linarith)
  have main : ∀ (k : ℕ) (a : ℝ), T0 ≤ a → a ≤ r → r - a ≤ k * δ →
      ∃ T, (∀ n, k ≤ n → temperatureForDelay gamma o tign Y eps n a = some T) ∧ T0 ≤ T ∧ T ≤ r := by
    intro k
    induction k with
    | zero =>
      intro a ha har hk
      have hae : a = r := by simp at hk; linarith
      refine ⟨a, fun n _ => ?_, ha, har⟩
      have hc : ¬eps < |ignitionDelay gamma o Y a eps - tign| := by rw [hae, hr', sub_self, abs_zero]; exact not_lt.2 h.eps.le
      cases n <;> simp [temperatureForDelay, hc]
    | succ k ih =>
      intro a ha har hk
      by_cases hc : eps < |ignitionDelay gamma o Y a eps - tign|
      · have ha0 : 0 < a := lt_of_lt_of_le h0 ha
        have hda := ignitionDelayDeriv_neg gamma o Y eps h hY a ha0 (by linarith)
        have hge : tign ≤ ignitionDelay gamma o Y a eps := by
          rw [← hr']; exact (ignitionDelay_strictAnti gamma o Y eps h hY).antitoneOn ⟨ha0, by linarith⟩ ⟨hr0, hrE⟩ har
        rw [abs_of_nonneg (by linarith)] at hc
        have hch := (ignitionDelay_chord gamma o Y eps h hY a r ha0 har hrE).1
        have hmono := ignitionDelayDeriv_mono gamma o Y eps h hY (a := T0) ⟨h0, by linarith⟩ (b := a) ⟨ha0, by linarith⟩ ha
        simp only at hmono
        set g := ignitionDelayDeriv gamma o Y a eps with hg
        set res := ignitionDelay gamma o Y a eps - tign with hres
        have hstep : δ ≤ -(res / g) := by
          rw [hδ, ← div_neg]
          exact div_le_div₀ (by linarith) hc.le (by linarith) (by linarith)
        have hle : a - res / g ≤ r := by
          have : -(res / g) ≤ r - a := by
            rw [← div_neg, div_le_iff₀ (by linarith)]
            rw [hr'] at hch
            nlinarith
          linarith
        obtain ⟨T, b1, b2, b3⟩ := ih (a - res / g) (by linarith) hle (by push_cast at hk; linarith)
        refine ⟨T, fun n hn => ?_, b2, b3⟩
        obtain ⟨m, rfl⟩ : ∃ m, n = m + 1 := ⟨n - 1, by omega⟩
        rw [temperatureForDelay, if_pos (by rw [abs_of_nonneg (by linarith)]; exact hc)]
        exact b1 m (by omega)
      · refine ⟨a, fun n _ => ?_, ha, har⟩
        cases n <;> simp [temperatureForDelay, hc]
  obtain ⟨N, hN⟩ := exists_nat_ge ((r - T0) / δ)
  obtain ⟨T, b1, b2, b3⟩ := main N T0 le_rfl hr.1 (by rw [div_le_iff₀ hδ0] at hN; exact hN)
  refine ⟨N, T, b1, b2, b3, ?_⟩
  have hs := temperatureForDelay_sound gamma o tign Y eps N T0 T (b1 N le_rfl)
  have hsl := ignitionDelayDeriv_neg gamma o Y eps h hY r hr0 hrE
  have hch := (ignitionDelay_chord gamma o Y eps h hY T r (by linarith) b3 hrE).2
  rw [le_div_iff₀ (by linarith)]
  have := (abs_le.1 hs).2
  rw [hr'] at hch
  nlinarith

/-- **C76 (termination), false for hot starts.** From any temperature the first iterate is negative if the requested delay is long enough, although a temperature with this delay exists. -/
theorem temperatureForDelay_overshoot (gamma : ℝ) (o : ArrheniusOptions) (Y eps : ℝ) (h : DelayOk gamma o eps) (hY : eps ≤ Y) (T0 : ℝ) (h0 : 0 < T0) (h1 : T0 ≤ o.EA / 4) :
    ∃ r tign, 0 < r ∧ r < T0 ∧ ignitionDelay gamma o Y r eps = tign ∧ eps < |ignitionDelay gamma o Y T0 eps - tign| ∧
      T0 - (ignitionDelay gamma o Y T0 eps - tign) / ignitionDelayDeriv gamma o Y T0 eps < 0 := by
  have hg := ignitionDelayDeriv_neg gamma o Y eps h hY T0 h0 h1
  have g1 : 0 < gamma - 1 := by linarith [h.gamma]
  have h2 := h.Q; have h3 := h.EA; have h4 := h.B
  have h5 : 0 < max Y eps := lt_max_of_lt_right h.eps
  set C := 1 / ((gamma - 1) * o.Q * max Y eps * o.B * o.EA) * (Real.exp (-o.EA) * (o.EA ^ 3 / 6)) with hC
  have hC0 : 0 < C := by have := Real.exp_pos (-o.EA); positivity
  have hlow : ∀ T : ℝ, 0 < T → C / T ≤ ignitionDelay gamma o Y T eps := by
    intro T hT
    rw [ignitionDelay_eq gamma o Y eps h T hT.ne']
    have e1 : Real.exp (-o.EA * (1 - 1 / T)) = Real.exp (-o.EA) * Real.exp (o.EA / T) := by rw [← Real.exp_add]; congr 1; field_simp; ring
    have e2 : (o.EA / T) ^ 3 / 6 ≤ Real.exp (o.EA / T) := by
      have := Real.pow_div_factorial_le_exp (o.EA / T) (by positivity) 3
      simpa [Nat.factorial] using this
    have e3 : (1 : ℝ) ≤ 1 + (2 + T / ((gamma - 1) * o.Q * max Y eps)) * (T / o.EA) := by
      have : 0 ≤ (2 + T / ((gamma - 1) * o.Q * max Y eps)) * (T / o.EA) := by positivity
      linarith
    rw [e1, hC, mul_div_assoc]
    refine mul_le_mul_of_nonneg_left ?_ (by positivity)
    have p1 := Real.exp_pos (-o.EA)
    calc Real.exp (-o.EA) * (o.EA ^ 3 / 6) / T = T ^ 2 * 1 * (Real.exp (-o.EA) * ((o.EA / T) ^ 3 / 6)) := by field_simp
      _ ≤ T ^ 2 * 1 * (Real.exp (-o.EA) * Real.exp (o.EA / T)) := mul_le_mul_of_nonneg_left (mul_le_mul_of_nonneg_left e2 p1.le) (by positivity)
      _ ≤ _ := mul_le_mul_of_nonneg_right (mul_le_mul_of_nonneg_left e3 (by positivity)) (by have := Real.exp_pos (o.EA / T); positivity)
  set g := ignitionDelayDeriv gamma o Y T0 eps with hgd
  set f := ignitionDelay gamma o Y T0 eps with hfd
  have hf0 : 0 < f := lt_of_lt_of_le (by positivity) (hlow T0 h0)
  have he := h.eps
  set M := f + T0 * -g + eps + 1 with hM
  have hM0 : 0 < M := by have := mul_pos h0 (by linarith : 0 < -g); linarith
  refine ⟨min (T0 / 2) (C / M), ignitionDelay gamma o Y (min (T0 / 2) (C / M)) eps, lt_min (by linarith) (by positivity), lt_of_le_of_lt (min_le_left _ _) (by linarith), rfl, ?_, ?_⟩
  all_goals
    have hr : M ≤ ignitionDelay gamma o Y (min (T0 / 2) (C / M)) eps := by
      refine le_trans ?_ (hlow _ (lt_min (by linarith) (by positivity)))
      rw [le_div_iff₀ (lt_min (by linarith) (by positivity))]
      calc M * min (T0 / 2) (C / M) ≤ M * (C / M) := mul_le_mul_of_nonneg_left (min_le_right _ _) hM0.le
        _ = C := by field_simp
    generalize ignitionDelay gamma o Y (min (T0 / 2) (C / M)) eps = v at hr
    have hp := mul_pos h0 (by linarith : 0 < -g)
  · rw [abs_of_neg (by linarith)]; linarith
  · have : T0 < (f - v) / g := by rw [lt_div_iff_of_neg hg]; linarith
    linarith

/-- The default constants of the code: the search started at temperature one finds a temperature up to two. -/
example : DelayOk (7 / 5) ⟨3 / (4 / 10), 10, 1 / 25, 21 / 20⟩ (1 / 1000) := ⟨by norm_num, by norm_num, by norm_num, by norm_num, by norm_num⟩

example : ∃ N T, (∀ n, N ≤ n → temperatureForDelay (7 / 5) ⟨3 / (4 / 10), 10, 1 / 25, 21 / 20⟩ (ignitionDelay (7 / 5) ⟨3 / (4 / 10), 10, 1 / 25, 21 / 20⟩ (1 / 2) 2 (1 / 1000))
    (1 / 2) (1 / 1000) n 1 = some T) ∧ 1 ≤ T ∧ T ≤ 2 := by
  have hok : DelayOk (7 / 5) ⟨3 / (4 / 10), 10, 1 / 25, 21 / 20⟩ (1 / 1000) := ⟨by norm_num, by norm_num, by norm_num, by norm_num, by norm_num⟩
  obtain ⟨r, hr, -, -, N, T, h1, h2, h3, -⟩ := temperatureForDelay_partial (7 / 5) ⟨3 / (4 / 10), 10, 1 / 25, 21 / 20⟩ _ (1 / 2) (1 / 1000) hok (by norm_num) 1 2 (by norm_num)
    (by norm_num) (by norm_num) ((ignitionDelay_strictAnti _ _ (1 / 2) _ hok (by norm_num)).antitoneOn (a := 1) ⟨by norm_num, by norm_num⟩ (b := 2) ⟨by norm_num, by norm_num⟩ (by norm_num)) le_rfl
  exact ⟨N, T, h1, h2, h3.trans hr.2⟩

end Fub
