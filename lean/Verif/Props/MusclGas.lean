import Verif.Model.MusclGas
import Verif.Props.Hllem
import Verif.Model.Limiter
import Mathlib.Tactic.LinearCombination
import Mathlib.Tactic.IntervalCases

/-!
C115: MUSCL-Hancock in primitive variables, C116: MUSCL-Hancock in characteristic variables, C117: the third order Runge-Kutta method; all for the perfect gas.
-/

namespace Fub

open Finset

variable {d : ℕ}

/-! ### Specification -/

/-- The Euler equations in primitive variables: the time derivative of density, velocities and pressure is minus this expression of the space derivative. -/
noncomputable def eulerPrimMatrix (w : GasPrim d) (c : ℝ) (dir : Fin d) (dw : GasPrim d) : GasPrim d :=
  { density := w.velocity dir * dw.density + w.density * dw.velocity dir
    velocity := fun i => w.velocity dir * dw.velocity i + if i = dir then dw.pressure / w.density else 0
    pressure := w.velocity dir * dw.pressure + w.density * c ^ 2 * dw.velocity dir }

/-- `w + s * x + t * y` -/
def primComb (w : GasPrim d) (s : ℝ) (x : GasPrim d) (t : ℝ) (y : GasPrim d) : GasPrim d :=
  ⟨w.density + s * x.density + t * y.density, fun i => w.velocity i + s * x.velocity i + t * y.velocity i, w.pressure + s * x.pressure + t * y.pressure⟩

/-! ### The limiter of C115 -/

theorem primLimiter_pos {eps qL qM qR : ℝ} (ha : 0 < qM - qL) (hb : 0 < qR - qM) (he : eps < 1 / 2 * (qR - qL)) :
    primLimiter eps qL qM qR = 2 * min (qM - qL) (qR - qM) * (1 / 2 * (qR - qL)) / (1 / 2 * (qR - qL) + min (qM - qL) (qR - qM)) := by
  unfold primLimiter
  generalize hd : 1 / 2 * (qR - qL) = δ at *
  have hδ : 0 < δ := by rw [← hd]; linarith
  have hrel : eps < |δ| := by rw [abs_of_pos hδ]; exact he
  simp only [hrel, if_true]
  have h1 : 0 < (qM - qL) / δ := div_pos ha hδ
  have h2 : 0 < (qR - qM) / δ := div_pos hb hδ
  simp only [h1, h2, and_self, if_true]
  rw [min_div_div_right hδ.le]
  set m := min (qM - qL) (qR - qM) with hm
  have hm0 : 0 < m := lt_min ha hb
  have hmd : m ≤ δ := by
    have h3 := min_le_left (qM - qL) (qR - qM)
    have h4 := min_le_right (qM - qL) (qR - qM)
    rw [← hd]; linarith
  by_cases hlt : m / δ < 1
  · rw [if_pos hlt]
    field_simp
  · rw [if_neg hlt]
    have hge : δ ≤ m := by
      have : 1 ≤ m / δ := not_lt.1 hlt
      rwa [le_div_iff₀ hδ, one_mul] at this
    have : m = δ := le_antisymm hmd hge
    rw [this]
    field_simp
    ring

theorem primLimiter_neg (eps qL qM qR : ℝ) : primLimiter eps (-qL) (-qM) (-qR) = -primLimiter eps qL qM qR := by
  unfold primLimiter
  have hd : 1 / 2 * (-qR - -qL) = -(1 / 2 * (qR - qL)) := by ring
  simp only [hd, abs_neg]
  by_cases hrel : eps < |1 / 2 * (qR - qL)|
  · simp only [hrel, if_true]
    have h1 : (-qM - -qL) / -(1 / 2 * (qR - qL)) = (qM - qL) / (1 / 2 * (qR - qL)) := by
      rw [show -qM - -qL = -(qM - qL) by ring, neg_div_neg_eq]
    have h2 : (-qR - -qM) / -(1 / 2 * (qR - qL)) = (qR - qM) / (1 / 2 * (qR - qL)) := by
      rw [show -qR - -qM = -(qR - qM) by ring, neg_div_neg_eq]
    rw [h1, h2]
    ring
  · simp only [hrel, if_false]
    ring

theorem primLimiter_mirror (eps qL qM qR : ℝ) : primLimiter eps qR qM qL = -primLimiter eps qL qM qR := by
  unfold primLimiter
  have hd : 1 / 2 * (qL - qR) = -(1 / 2 * (qR - qL)) := by ring
  simp only [hd, abs_neg]
  by_cases hrel : eps < |1 / 2 * (qR - qL)|
  · simp only [hrel, if_true]
    have h1 : (qM - qR) / -(1 / 2 * (qR - qL)) = (qR - qM) / (1 / 2 * (qR - qL)) := by
      rw [show qM - qR = -(qR - qM) by ring, neg_div_neg_eq]
    have h2 : (qL - qM) / -(1 / 2 * (qR - qL)) = (qM - qL) / (1 / 2 * (qR - qL)) := by
      rw [show qL - qM = -(qM - qL) by ring, neg_div_neg_eq]
    rw [h1, h2, min_comm]
    generalize (qR - qM) / (1 / 2 * (qR - qL)) = x
    generalize (qM - qL) / (1 / 2 * (qR - qL)) = y
    have hite : (if 0 < x ∧ 0 < y then min y x else 0) = if 0 < y ∧ 0 < x then min y x else 0 := if_congr and_comm rfl rfl
    rw [hite]
    ring
  · simp only [hrel, if_false]
    ring

theorem primLimiter_small {eps qL qM qR : ℝ} (h : |qR - qL| ≤ 2 * eps) : primLimiter eps qL qM qR = 0 := by
  have hrel : ¬ eps < |1 / 2 * (qR - qL)| := by
    rw [abs_mul, abs_of_pos (by norm_num : (0 : ℝ) < 1 / 2)]; linarith
  unfold primLimiter
  simp only [hrel, if_false]
  norm_num

theorem primLimiter_extremum {eps qL qM qR : ℝ} (h : (qM - qL) * (qR - qM) ≤ 0) : primLimiter eps qL qM qR = 0 := by
  unfold primLimiter
  by_cases hrel : eps < |1 / 2 * (qR - qL)|
  · simp only [hrel, if_true]
    have hn : ¬ (0 < (qM - qL) / (1 / 2 * (qR - qL)) ∧ 0 < (qR - qM) / (1 / 2 * (qR - qL))) := by
      rintro ⟨h1, h2⟩
      have h3 := mul_pos h1 h2
      rw [div_mul_div_comm] at h3
      have h4 : 0 ≤ 1 / 2 * (qR - qL) * (1 / 2 * (qR - qL)) := mul_self_nonneg _
      have := div_nonpos_of_nonpos_of_nonneg h h4
      linarith
    simp only [hn, if_false]
    norm_num
  · simp only [hrel, if_false]
    norm_num

theorem primLimiter_between_pos {eps qL qM qR : ℝ} (he : 0 ≤ eps) (ha : qL ≤ qM) (hb : qM ≤ qR) :
    0 ≤ primLimiter eps qL qM qR ∧ primLimiter eps qL qM qR ≤ 2 * (qM - qL) ∧ primLimiter eps qL qM qR ≤ 2 * (qR - qM) := by
  by_cases hsmall : |qR - qL| ≤ 2 * eps
  · rw [primLimiter_small hsmall]
    exact ⟨le_rfl, by linarith, by linarith⟩
  · by_cases hz : (qM - qL) * (qR - qM) ≤ 0
    · rw [primLimiter_extremum hz]
      exact ⟨le_rfl, by linarith, by linarith⟩
    · have ha' : 0 < qM - qL := by
        rcases lt_or_eq_of_le (sub_nonneg.2 ha) with h | h
        · exact h
        · rw [← h] at hz; simp at hz
      have hb' : 0 < qR - qM := by
        rcases lt_or_eq_of_le (sub_nonneg.2 hb) with h | h
        · exact h
        · rw [← h] at hz; simp at hz
      have hδ : eps < 1 / 2 * (qR - qL) := by
        rw [abs_of_pos (by linarith)] at hsmall; linarith
      rw [primLimiter_pos ha' hb' hδ]
      have hm0 : 0 < min (qM - qL) (qR - qM) := lt_min ha' hb'
      have h1 := min_le_left (qM - qL) (qR - qM)
      have h2 := min_le_right (qM - qL) (qR - qM)
      generalize min (qM - qL) (qR - qM) = m at *
      generalize hd : 1 / 2 * (qR - qL) = δ at *
      have hδ0 : 0 < δ := lt_of_le_of_lt he hδ
      have key : 2 * m * δ / (δ + m) ≤ 2 * m := by
        rw [div_le_iff₀ (by linarith)]
        nlinarith
      exact ⟨by positivity, by linarith, by linarith⟩

/-- C115: the limited slope is zero at extrema. Otherwise the values at the two faces of the cell lie between the values of the cell and of its neighbours, so that the
reconstruction makes no new extrema. For linear data with a jump of more than the threshold the slope is exact. The mirrored stencil has the opposite slope. -/
theorem muscl_prim_limiter (eps qL qM qR : ℝ) (he : 0 ≤ eps) :
    (min qM qR ≤ qM + 1 / 2 * primLimiter eps qL qM qR ∧ qM + 1 / 2 * primLimiter eps qL qM qR ≤ max qM qR) ∧
      (min qL qM ≤ qM - 1 / 2 * primLimiter eps qL qM qR ∧ qM - 1 / 2 * primLimiter eps qL qM qR ≤ max qL qM) ∧
      ((qM - qL) * (qR - qM) ≤ 0 → primLimiter eps qL qM qR = 0) ∧
      (qR - qM = qM - qL → eps < |qM - qL| → primLimiter eps qL qM qR = qM - qL) ∧
      primLimiter eps qR qM qL = -primLimiter eps qL qM qR := by
  have hmono : ∀ qL qM qR : ℝ, qL ≤ qM → qM ≤ qR → (min qM qR ≤ qM + 1 / 2 * primLimiter eps qL qM qR ∧ qM + 1 / 2 * primLimiter eps qL qM qR ≤ max qM qR) ∧
      (min qL qM ≤ qM - 1 / 2 * primLimiter eps qL qM qR ∧ qM - 1 / 2 * primLimiter eps qL qM qR ≤ max qL qM) := by
    intro qL qM qR ha hb
    obtain ⟨h1, h2, h3⟩ := primLimiter_between_pos he ha hb
    rw [min_eq_left hb, max_eq_right hb, min_eq_left ha, max_eq_right ha]
    exact ⟨⟨by linarith, by linarith⟩, by linarith, by linarith⟩
  have hb : (min qM qR ≤ qM + 1 / 2 * primLimiter eps qL qM qR ∧ qM + 1 / 2 * primLimiter eps qL qM qR ≤ max qM qR) ∧
      (min qL qM ≤ qM - 1 / 2 * primLimiter eps qL qM qR ∧ qM - 1 / 2 * primLimiter eps qL qM qR ≤ max qL qM) := by
    by_cases hz : (qM - qL) * (qR - qM) ≤ 0
    · rw [primLimiter_extremum hz]
      simp
    · rcases le_total qL qM with ha | ha
      · exact hmono qL qM qR ha (by by_contra hlt; push Not at hlt; exact hz (mul_nonpos_of_nonneg_of_nonpos (by linarith) (by linarith)))
      · have hb : qR ≤ qM := by
          by_contra hlt; push Not at hlt; exact hz (mul_nonpos_of_nonpos_of_nonneg (by linarith) (by linarith))
        obtain ⟨⟨h1, h2⟩, h3, h4⟩ := hmono (-qL) (-qM) (-qR) (by linarith) (by linarith)
        rw [primLimiter_neg] at h1 h2 h3 h4
        rw [min_neg_neg] at h1 h3
        rw [max_neg_neg] at h2 h4
        exact ⟨⟨by linarith, by linarith⟩, by linarith, by linarith⟩
  refine ⟨hb.1, hb.2, primLimiter_extremum, ?_, primLimiter_mirror eps qL qM qR⟩
  intro hlin hjump
  have hpos : ∀ qL qM qR : ℝ, qR - qM = qM - qL → eps < qM - qL → primLimiter eps qL qM qR = qM - qL := by
    intro qL qM qR hlin hjump
    have ha : 0 < qM - qL := lt_of_le_of_lt he hjump
    have hδ : 1 / 2 * (qR - qL) = qM - qL := by linarith
    rw [primLimiter_pos ha (by rw [hlin]; exact ha) (by rw [hδ]; exact hjump), hlin, min_self, hδ]
    field_simp
    ring
  rcases lt_or_ge 0 (qM - qL) with h | h
  · rw [abs_of_pos h] at hjump
    exact hpos qL qM qR hlin hjump
  · rw [abs_of_nonpos h] at hjump
    have := hpos (-qL) (-qM) (-qR) (by linarith) (by linarith)
    rw [primLimiter_neg] at this
    linarith

/-- C115, limit: the threshold is an absolute number: the same data in other units have another slope. The reconstruction of a smooth profile of a small quantity (for
example a density of 1e-12 in some system of units) is first order. -/
theorem muscl_prim_limiter_units : primLimiter (1 / 10 ^ 12) 0 1 2 = 1 ∧ primLimiter (1 / 10 ^ 12) 0 (1 / 10 ^ 13) (2 / 10 ^ 13) = 0 := by
  refine ⟨?_, ?_⟩
  · have := (muscl_prim_limiter (1 / 10 ^ 12) 0 1 2 (by norm_num)).2.2.2.1 (by norm_num) (by norm_num)
    rw [this]; norm_num
  · refine primLimiter_small ?_
    rw [abs_of_pos (by norm_num)]
    norm_num

theorem primLimiter_const (eps q : ℝ) : primLimiter eps q q q = 0 := primLimiter_extremum (by simp)

/-! ### C115, the reconstruction -/

/-- C115: the reconstructed states are the values of the linear profile at the faces, moved by half a time step of the Euler equations in primitive variables. -/
theorem muscl_prim_predictor (w dw : GasPrim d) (c lambda : ℝ) (dir : Fin d) :
    primRecLeft w dw c lambda dir = primComb w (1 / 2) dw (-(lambda / 2)) (eulerPrimMatrix w c dir dw) ∧
      primRecRight w dw c lambda dir = primComb w (-(1 / 2)) dw (-(lambda / 2)) (eulerPrimMatrix w c dir dw) := by
  constructor
  · ext i
    · simp only [primRecLeft, primComb, eulerPrimMatrix]; ring
    · simp only [primRecLeft, primComb, eulerPrimMatrix]
      by_cases hi : i = dir
      · simp only [hi, if_true]; ring
      · simp only [hi, if_false]; ring
    · simp only [primRecLeft, primComb, eulerPrimMatrix]; ring
  · ext i
    · simp only [primRecRight, primComb, eulerPrimMatrix]; ring
    · simp only [primRecRight, primComb, eulerPrimMatrix]
      by_cases hi : i = dir
      · simp only [hi, if_true]; ring
      · simp only [hi, if_false]; ring
    · simp only [primRecRight, primComb, eulerPrimMatrix]; ring

theorem primRecComplete_eq (eq : GasEq) (w : GasPrim d) (hr : w.density ≠ 0) : primRecComplete eq w = gasFromPrimArray eq w := by
  unfold primRecComplete gasFromPrimArray gasKinetic
  ext i
  · rfl
  · rfl
  · show 1 / 2 * w.density * (∑ i, w.velocity i * w.velocity i) + _ = _
    have : (∑ i, w.density * w.velocity i * (w.density * w.velocity i)) = w.density ^ 2 * ∑ i, w.velocity i * w.velocity i := by
      rw [Finset.mul_sum]; exact Finset.sum_congr rfl fun i _ => by ring
    simp only [this]
    field_simp
  · rfl
  · rfl

theorem primRecComplete_state {eq : GasEq} (hv : eq.Valid) (w : GasPrim d) (hr : 0 < w.density) (hp : 0 < w.pressure) :
    IsGasState eq (primRecComplete eq w) ∧ gasPrim (primRecComplete eq w) = w := by
  obtain ⟨h1, -, h3, h4, -⟩ := gas_prim_roundtrip eq hv w hr hp
  rw [primRecComplete_eq eq w hr.ne', h4]
  exact ⟨h1, h3⟩

theorem gasState_prim_ext {eq : GasEq} {p q : GasComplete d} (hp : IsGasState eq p) (hq : IsGasState eq q) (h : gasPrim p = gasPrim q) : p = q := by
  have h1 : p.density = q.density := congrArg GasPrim.density h
  have h2 : gasVelocity p = gasVelocity q := congrArg GasPrim.velocity h
  have h3 : p.pressure = q.pressure := congrArg GasPrim.pressure h
  have h4 : p.momentum = q.momentum := by
    funext i
    have := congrFun h2 i
    unfold gasVelocity at this
    rw [h1] at this
    have hne := hq.density_pos.ne'
    field_simp at this
    exact this
  ext i
  · exact h1
  · rw [h4]
  · rw [hp.energy_eq, hq.energy_eq, h1, h3, h4]
  · exact h3
  · have e1 := hp.sound_sq
    have e2 := hq.sound_sq
    rw [h1, h3, ← e2] at e1
    have := mul_right_cancel₀ hq.density_pos.ne' e1
    exact (pow_left_inj₀ hp.sound_pos.le hq.sound_pos.le two_ne_zero).1 this

theorem primSlopes_const (eps : ℝ) (w : GasPrim d) : primSlopes eps w w w = ⟨0, fun _ => 0, 0⟩ := by
  unfold primSlopes
  simp only [primLimiter_const]

/-- C115: consistency. In a constant flow the flux is the Euler flux of the state, for every time step. -/
theorem muscl_prim_consistent {eq : GasEq} (hv : eq.Valid) {q : GasComplete d} (hq : IsGasState eq q) (eps lambda : ℝ) (dir : Fin d) :
    musclPrimFlux eq eps lambda dir q q q q = gasFlux q dir := by
  have hpair : primRecPair eps lambda dir q q q q = (gasPrim q, gasPrim q) := by
    unfold primRecPair
    rw [primSlopes_const]
    have hL := (muscl_prim_predictor (gasPrim q) ⟨0, fun _ => 0, 0⟩ q.speedOfSound lambda dir).1
    have hR := (muscl_prim_predictor (gasPrim q) ⟨0, fun _ => 0, 0⟩ q.speedOfSound lambda dir).2
    rw [hL, hR]
    refine Prod.ext ?_ ?_
    · ext i
      · simp [primComb, eulerPrimMatrix]
      · by_cases hi : i = dir <;> simp [primComb, eulerPrimMatrix, hi]
      · simp [primComb, eulerPrimMatrix]
    · ext i
      · simp [primComb, eulerPrimMatrix]
      · by_cases hi : i = dir <;> simp [primComb, eulerPrimMatrix, hi]
      · simp [primComb, eulerPrimMatrix]
  unfold musclPrimFlux
  rw [hpair]
  have hr := hq.density_pos
  have hp := hq.pressure_pos
  rw [if_pos ⟨⟨hr, hp⟩, hr, hp⟩]
  obtain ⟨h1, h2⟩ := primRecComplete_state hv (gasPrim q) hr hp
  have : primRecComplete eq (gasPrim q) = q := gasState_prim_ext h1 hq h2
  rw [this]
  exact (hllem_array_consistent hv hq true dir).1.symm

/-- C115: without a time step every reconstruction of positive densities and pressures is positive, so that no assertion fails and the flux exists. With a time step it
is false, see `muscl_prim_negative_density`. -/
theorem muscl_prim_positive_partial (eq : GasEq) (eps : ℝ) (he : 0 ≤ eps) (dir : Fin d) (q0 q1 q2 q3 : GasComplete d)
    (h0 : 0 < q0.density ∧ 0 < q0.pressure) (h1 : 0 < q1.density ∧ 0 < q1.pressure) (h2 : 0 < q2.density ∧ 0 < q2.pressure)
    (h3 : 0 < q3.density ∧ 0 < q3.pressure) : ∃ f, musclPrimFlux eq eps 0 dir q0 q1 q2 q3 = some f := by
  have hL : ∀ a b c : ℝ, 0 < b → 0 < c → 0 < b + 1 / 2 * primLimiter eps a b c := by
    intro a b c hb hc
    exact lt_of_lt_of_le (lt_min hb hc) (muscl_prim_limiter eps a b c he).1.1
  have hR : ∀ a b c : ℝ, 0 < a → 0 < b → 0 < b - 1 / 2 * primLimiter eps a b c := by
    intro a b c ha hb
    exact lt_of_lt_of_le (lt_min ha hb) (muscl_prim_limiter eps a b c he).2.1.1
  unfold musclPrimFlux
  dsimp only
  rw [if_pos]
  · exact ⟨_, rfl⟩
  · refine ⟨⟨?_, ?_⟩, ?_, ?_⟩
    · simpa [primRecPair, primRecLeft, primSlopes, gasPrim] using hL q0.density q1.density q2.density h1.1 h2.1
    · simpa [primRecPair, primRecLeft, primSlopes, gasPrim] using hL q0.pressure q1.pressure q2.pressure h1.2 h2.2
    · simpa [primRecPair, primRecRight, primSlopes, gasPrim] using hR q1.density q2.density q3.density h1.1 h2.1
    · simpa [primRecPair, primRecRight, primSlopes, gasPrim] using hR q1.pressure q2.pressure q3.pressure h1.2 h2.2

/-- The cells of the counterexample: air with density `rho`, velocity -1 and pressure 1/140. -/
noncomputable def thinAir (rho : ℝ) : GasComplete 1 := gasFromPrim (GasEq.new 287 (7 / 5)) ⟨rho, fun _ => -1, 1 / 140⟩

theorem thinAir_facts (rho : ℝ) (h : 1 / 10 ≤ rho) : IsGasState (GasEq.new 287 (7 / 5)) (thinAir rho) ∧ gasPrim (thinAir rho) = ⟨rho, fun _ => -1, 1 / 140⟩ ∧
    3 / 8 * (|gasVelocity (thinAir rho) 0| + (thinAir rho).speedOfSound) ≤ 1 / 2 := by
  have hv := gasEq_new_valid 287 (7 / 5) (by norm_num)
  obtain ⟨h1, -, h3, -⟩ := gas_prim_roundtrip (d := 1) (GasEq.new 287 (7 / 5)) hv ⟨rho, fun _ => -1, 1 / 140⟩ (by show (0 : ℝ) < rho; linarith)
    (by show (0 : ℝ) < 1 / 140; norm_num)
  refine ⟨h1, h3, ?_⟩
  have hvel : gasVelocity (thinAir rho) 0 = -1 := congrFun (congrArg GasPrim.velocity h3) 0
  rw [hvel]
  have hs : (thinAir rho).speedOfSound ≤ 1 / 3 := by
    show Real.sqrt (7 / 5 * (1 / 140) / rho) ≤ 1 / 3
    rw [Real.sqrt_le_left (by norm_num)]
    rw [div_le_iff₀ (by linarith)]
    nlinarith
  norm_num
  linarith

/-- C115, the negation: four states of air with positive densities and pressures, moving with the same velocity and with the same pressure, and a time step of half of
the stability limit in every cell: the reconstructed density is negative and the assertion fails. -/
theorem muscl_prim_negative_density : ∃ (q0 q1 q2 q3 : GasComplete 1) (lambda : ℝ), 0 < lambda ∧
    (∀ q ∈ [q0, q1, q2, q3], IsGasState (GasEq.new 287 (7 / 5)) q ∧ lambda * (|gasVelocity q 0| + q.speedOfSound) ≤ 1 / 2) ∧
    (primRecPair (1 / 10 ^ 12) lambda 0 q0 q1 q2 q3).1.density < 0 ∧ musclPrimFlux (GasEq.new 287 (7 / 5)) (1 / 10 ^ 12) lambda 0 q0 q1 q2 q3 = none := by
  have hneg : (primRecPair (1 / 10 ^ 12) (3 / 8) 0 (thinAir 9) (thinAir 1) (thinAir (1 / 10)) (thinAir (1 / 10))).1.density < 0 := by
    unfold primRecPair primRecLeft primSlopes
    rw [(thinAir_facts 9 (by norm_num)).2.1, (thinAir_facts 1 (by norm_num)).2.1, (thinAir_facts (1 / 10) (by norm_num)).2.1]
    dsimp only
    rw [primLimiter_const]
    have hl : primLimiter (1 / 10 ^ 12) 9 1 (1 / 10) = -(801 / 535) := by
      have := primLimiter_pos (eps := 1 / 10 ^ 12) (qL := -9) (qM := -1) (qR := -(1 / 10)) (by norm_num) (by norm_num) (by norm_num)
      rw [primLimiter_neg] at this
      rw [min_eq_right (by norm_num)] at this
      norm_num at this ⊢
      linarith
    rw [hl]
    norm_num
  refine ⟨thinAir 9, thinAir 1, thinAir (1 / 10), thinAir (1 / 10), 3 / 8, by norm_num, ?_, hneg, ?_⟩
  · intro q hq
    simp only [List.mem_cons, List.not_mem_nil, or_false] at hq
    rcases hq with rfl | rfl | rfl | rfl
    · exact ⟨(thinAir_facts 9 (by norm_num)).1, (thinAir_facts 9 (by norm_num)).2.2⟩
    · exact ⟨(thinAir_facts 1 (by norm_num)).1, (thinAir_facts 1 (by norm_num)).2.2⟩
    · exact ⟨(thinAir_facts (1 / 10) (by norm_num)).1, (thinAir_facts (1 / 10) (by norm_num)).2.2⟩
    · exact ⟨(thinAir_facts (1 / 10) (by norm_num)).1, (thinAir_facts (1 / 10) (by norm_num)).2.2⟩
  · unfold musclPrimFlux
    dsimp only
    rw [if_neg]
    intro h
    linarith [h.1.1]

/-- The primitive state in the mirror. -/
def mirrorPrim (dir : Fin d) (w : GasPrim d) : GasPrim d := { w with velocity := fun i => if i = dir then -w.velocity i else w.velocity i }

theorem gasPrim_mirror (dir : Fin d) (q : GasComplete d) : gasPrim (mirrorGas dir q) = mirrorPrim dir (gasPrim q) := by
  ext i
  · rfl
  · simp only [gasPrim, gasVelocity, mirrorGas, mirrorPrim]
    by_cases hi : i = dir <;> simp [hi, neg_div]
  · rfl

theorem primRecComplete_mirror (eq : GasEq) (dir : Fin d) (w : GasPrim d) : primRecComplete eq (mirrorPrim dir w) = mirrorGas dir (primRecComplete eq w) := by
  ext i
  · rfl
  · simp only [primRecComplete, mirrorPrim, mirrorGas]
    by_cases hi : i = dir <;> simp [hi]
  · simp only [primRecComplete, mirrorPrim, mirrorGas]
    have : ∀ i, (if i = dir then -w.velocity i else w.velocity i) * (if i = dir then -w.velocity i else w.velocity i) = w.velocity i * w.velocity i := by
      intro i; by_cases hi : i = dir <;> simp [hi]
    simp only [this]
  · rfl
  · rfl

theorem primRecPair_mirror (eps lambda : ℝ) (dir : Fin d) (q0 q1 q2 q3 : GasComplete d) :
    primRecPair eps lambda dir (mirrorGas dir q3) (mirrorGas dir q2) (mirrorGas dir q1) (mirrorGas dir q0) =
      (mirrorPrim dir (primRecPair eps lambda dir q0 q1 q2 q3).2, mirrorPrim dir (primRecPair eps lambda dir q0 q1 q2 q3).1) := by
  have key : ∀ (l m r : GasPrim d) (c : ℝ),
      primRecLeft (mirrorPrim dir m) (primSlopes eps (mirrorPrim dir r) (mirrorPrim dir m) (mirrorPrim dir l)) c lambda dir =
        mirrorPrim dir (primRecRight m (primSlopes eps l m r) c lambda dir) ∧
      primRecRight (mirrorPrim dir m) (primSlopes eps (mirrorPrim dir r) (mirrorPrim dir m) (mirrorPrim dir l)) c lambda dir =
        mirrorPrim dir (primRecLeft m (primSlopes eps l m r) c lambda dir) := by
    intro l m r c
    have hdir : primLimiter eps (-r.velocity dir) (-m.velocity dir) (-l.velocity dir) = primLimiter eps (l.velocity dir) (m.velocity dir) (r.velocity dir) := by
      rw [primLimiter_neg, primLimiter_mirror, neg_neg]
    constructor
    · ext i
      · simp only [primRecLeft, primRecRight, primSlopes, mirrorPrim, if_true, hdir, primLimiter_mirror eps l.density]; ring
      · simp only [primRecLeft, primRecRight, primSlopes, mirrorPrim, if_true, hdir, primLimiter_mirror eps l.pressure]
        by_cases hi : i = dir
        · simp only [hi, if_true, hdir]; ring
        · simp only [hi, if_false, primLimiter_mirror eps (l.velocity i)]; ring
      · simp only [primRecLeft, primRecRight, primSlopes, mirrorPrim, if_true, hdir, primLimiter_mirror eps l.pressure]; ring
    · ext i
      · simp only [primRecLeft, primRecRight, primSlopes, mirrorPrim, if_true, hdir, primLimiter_mirror eps l.density]; ring
      · simp only [primRecLeft, primRecRight, primSlopes, mirrorPrim, if_true, hdir, primLimiter_mirror eps l.pressure]
        by_cases hi : i = dir
        · simp only [hi, if_true, hdir]; ring
        · simp only [hi, if_false, primLimiter_mirror eps (l.velocity i)]; ring
      · simp only [primRecLeft, primRecRight, primSlopes, mirrorPrim, if_true, hdir, primLimiter_mirror eps l.pressure]; ring
  unfold primRecPair
  simp only [gasPrim_mirror]
  exact Prod.ext (key _ _ _ _).1 (key _ _ _ _).2

/-- C115: mirror symmetry in one and two space dimensions: the flux of the mirrored stencil is the mirrored flux. (In three dimensions the HLLEM flux is not symmetric.) -/
theorem muscl_prim_mirror_partial (eq : GasEq) (eps lambda : ℝ) (hd : d ≠ 3) (dir : Fin d) (q0 q1 q2 q3 : GasComplete d) :
    musclPrimFlux eq eps lambda dir (mirrorGas dir q3) (mirrorGas dir q2) (mirrorGas dir q1) (mirrorGas dir q0) =
      (musclPrimFlux eq eps lambda dir q0 q1 q2 q3).map (mirrorFlux dir) := by
  unfold musclPrimFlux
  rw [primRecPair_mirror]
  dsimp only
  have hcond : (((0 < (mirrorPrim dir (primRecPair eps lambda dir q0 q1 q2 q3).2).density ∧ 0 < (mirrorPrim dir (primRecPair eps lambda dir q0 q1 q2 q3).2).pressure) ∧
      0 < (mirrorPrim dir (primRecPair eps lambda dir q0 q1 q2 q3).1).density ∧ 0 < (mirrorPrim dir (primRecPair eps lambda dir q0 q1 q2 q3).1).pressure)) ↔
      ((0 < (primRecPair eps lambda dir q0 q1 q2 q3).1.density ∧ 0 < (primRecPair eps lambda dir q0 q1 q2 q3).1.pressure) ∧
        0 < (primRecPair eps lambda dir q0 q1 q2 q3).2.density ∧ 0 < (primRecPair eps lambda dir q0 q1 q2 q3).2.pressure) := and_comm
  by_cases hc : ((0 < (primRecPair eps lambda dir q0 q1 q2 q3).1.density ∧ 0 < (primRecPair eps lambda dir q0 q1 q2 q3).1.pressure) ∧
        0 < (primRecPair eps lambda dir q0 q1 q2 q3).2.density ∧ 0 < (primRecPair eps lambda dir q0 q1 q2 q3).2.pressure)
  · rw [if_pos hc, if_pos (hcond.2 hc), primRecComplete_mirror, primRecComplete_mirror, hllem_mirror_partial eq true hd dir]
    rfl
  · rw [if_neg hc, if_neg fun h => hc (hcond.1 h)]
    rfl

/-- C115: cut cells. At a closed face the flux is zero. If all cells have fluid, it is the flux without cut cells. Next to a cell without fluid the inner state is used
without slope, so the left state of the face is the state of the cell for every time step. -/
theorem muscl_prim_masked (eq : GasEq) (eps lambda : ℝ) (dir : Fin d) (face vol0 vol3 : ℝ) (q0 q1 q2 q3 : GasComplete d) :
    (face ≤ 0 → musclPrimFluxMasked eq eps lambda dir face vol0 vol3 q0 q1 q2 q3 = some ⟨0, fun _ => 0, 0⟩) ∧
      (0 < face → 0 < vol0 → 0 < vol3 → musclPrimFluxMasked eq eps lambda dir face vol0 vol3 q0 q1 q2 q3 = musclPrimFlux eq eps lambda dir q0 q1 q2 q3) ∧
      (vol0 ≤ 0 → (primRecPair eps lambda dir (musclPrimOuter vol0 q0 q1) q1 q2 (musclPrimOuter vol3 q3 q2)).1 = gasPrim q1) ∧
      (vol3 ≤ 0 → (primRecPair eps lambda dir (musclPrimOuter vol0 q0 q1) q1 q2 (musclPrimOuter vol3 q3 q2)).2 = gasPrim q2) := by
  refine ⟨?_, ?_, ?_, ?_⟩
  · intro h; unfold musclPrimFluxMasked; rw [if_neg (not_lt.2 h)]
  · intro h h0 h3; unfold musclPrimFluxMasked musclPrimOuter; rw [if_pos h, if_pos h0, if_pos h3]
  · intro h
    have hg : gasPrim (musclPrimOuter vol0 q0 q1) = gasPrim q1 := by
      unfold musclPrimOuter; rw [if_neg (not_lt.2 h)]; rfl
    unfold primRecPair
    rw [hg]
    have hs : ∀ w r : GasPrim d, primSlopes eps w w r = ⟨0, fun _ => 0, 0⟩ := by
      intro w r
      unfold primSlopes
      have : ∀ a b : ℝ, primLimiter eps a a b = 0 := fun a b => primLimiter_extremum (by simp)
      simp only [this]
    simp only [hs]
    rw [(muscl_prim_predictor _ _ _ _ _).1]
    ext i
    · simp [primComb, eulerPrimMatrix]
    · by_cases hi : i = dir <;> simp [primComb, eulerPrimMatrix, hi]
    · simp [primComb, eulerPrimMatrix]
  · intro h
    have hg : gasPrim (musclPrimOuter vol3 q3 q2) = gasPrim q2 := by
      unfold musclPrimOuter; rw [if_neg (not_lt.2 h)]; rfl
    unfold primRecPair
    rw [hg]
    have hs : ∀ l w : GasPrim d, primSlopes eps l w w = ⟨0, fun _ => 0, 0⟩ := by
      intro w r
      unfold primSlopes
      have : ∀ a b : ℝ, primLimiter eps a b b = 0 := fun a b => primLimiter_extremum (by simp)
      simp only [this]
    simp only [hs]
    rw [(muscl_prim_predictor _ _ _ _ _).2]
    ext i
    · simp [primComb, eulerPrimMatrix]
    · by_cases hi : i = dir <;> simp [primComb, eulerPrimMatrix, hi]
    · simp [primComb, eulerPrimMatrix]

/-! ### C116 -/

/-- The primitive difference of characteristic slopes, velocities of existing directions only. -/
noncomputable def charDifference (slope : Chars3) (rhoc ooc2 : ℝ) (ix : Fin 3) (d : ℕ) : GasPrim d :=
  ⟨(recombine3 slope rhoc ooc2 ix).density, fun i => if h : i.1 < 3 then (recombine3 slope rhoc ooc2 ix).velocity ⟨i.1, h⟩ else 0, (recombine3 slope rhoc ooc2 ix).pressure⟩

/-- C116: the characteristic amplitudes of two states describe their difference: recombining them gives the difference of the primitive variables, in every direction. -/
theorem muscl_char_roundtrip (l r : Prim3) (rhoc ooc2 : ℝ) (hr : rhoc ≠ 0) (ix : Fin 3) :
    recombine3 (ampl3 l r rhoc ooc2 ix) rhoc ooc2 ix = ⟨r.density - l.density, fun i => r.velocity i - l.velocity i, r.pressure - l.pressure⟩ := by
  ext i
  · simp only [recombine3, ampl3]; ring
  · simp only [recombine3, ampl3]
    by_cases h0 : i = ix
    · subst h0
      simp only [if_true]
      field_simp
      ring
    · by_cases h1 : i = ix + 1
      · subst h1
        simp only [h0, if_false, if_true]
      · have h2 : i = ix + 2 := by
          revert h0 h1
          revert i ix
          decide
        subst h2
        simp only [h0, h1, if_false]
  · simp only [recombine3, ampl3]; ring

/-- C116: whatever the limited slopes are, the reconstructed state is the state of the cell plus half of the corresponding difference, moved by half a time step of the
Euler equations in primitive variables. (This is the same predictor as in C115.) -/
theorem muscl_char_predictor (slope : Chars3) (q : GasComplete d) (hr : q.density ≠ 0) (hc : q.speedOfSound ≠ 0) (hd : d ≤ 3) (lambda : ℝ) (dir : Fin d) (rightSide : Bool) :
    charRec3 slope q rightSide lambda dir (dir.castLE hd) =
      primComb (gasPrim q) (if rightSide then -(1 / 2) else 1 / 2) (charDifference slope (q.density * q.speedOfSound) (1 / (q.speedOfSound * q.speedOfSound)) (dir.castLE hd) d)
        (-(lambda / 2)) (eulerPrimMatrix (gasPrim q) q.speedOfSound dir
          (charDifference slope (q.density * q.speedOfSound) (1 / (q.speedOfSound * q.speedOfSound)) (dir.castLE hd) d)) := by
  have h3 : ∀ i : Fin d, i.1 < 3 := fun i => lt_of_lt_of_le i.2 hd
  have hix : ∀ i : Fin d, ((⟨i.1, h3 i⟩ : Fin 3) = dir.castLE hd) ↔ i = dir := by
    intro i
    constructor
    · intro h
      have := congrArg Fin.val h
      exact Fin.ext this
    · rintro rfl; rfl
  have hdir : (⟨dir.1, h3 dir⟩ : Fin 3) = dir.castLE hd := rfl
  ext i
  · simp only [charRec3, charStep3, recombine3, primComb, eulerPrimMatrix, charDifference, gasPrim, gasVelocity, h3, dif_pos, hdir, if_true]
    cases rightSide
    · simp only [Bool.false_eq_true, if_false]; field_simp; ring
    · simp only [if_true]; field_simp; ring
  · simp only [charRec3, charStep3, recombine3, primComb, eulerPrimMatrix, charDifference, gasPrim, gasVelocity, h3, dif_pos]
    by_cases hi : i = dir
    · subst hi
      simp only [hdir, if_true]
      cases rightSide
      · simp only [Bool.false_eq_true, if_false]; field_simp; ring
      · simp only [if_true]; field_simp; ring
    · have hne : ¬ ((⟨i.1, h3 i⟩ : Fin 3) = dir.castLE hd) := fun h => hi ((hix i).1 h)
      simp only [hne, hi, if_false]
      by_cases h1 : (⟨i.1, h3 i⟩ : Fin 3) = dir.castLE hd + 1
      · simp only [h1, if_true]
        cases rightSide
        · simp only [Bool.false_eq_true, if_false]; ring
        · simp only [if_true]; ring
      · simp only [h1, if_false]
        cases rightSide
        · simp only [Bool.false_eq_true, if_false]; ring
        · simp only [if_true]; ring
  · simp only [charRec3, charStep3, recombine3, primComb, eulerPrimMatrix, charDifference, gasPrim, gasVelocity, h3, dif_pos, hdir, if_true]
    cases rightSide
    · simp only [Bool.false_eq_true, if_false]; field_simp; ring
    · simp only [if_true]; field_simp; ring

theorem toPrim3_velocity (q : GasComplete d) (i : Fin d) (h : i.1 < 3) : (toPrim3 q).velocity ⟨i.1, h⟩ = gasVelocity q i := by
  simp only [toPrim3, i.2, dif_pos]; rfl

/-- The difference of two primitive states. -/
def primDiff (l r : GasPrim d) : GasPrim d := ⟨r.density - l.density, fun i => r.velocity i - l.velocity i, r.pressure - l.pressure⟩

/-- C116: on data that are linear in the primitive variables every limiter with `limiter x x = x` is inactive: both face states are exact, for every time step. -/
theorem muscl_char_linear (limiter : ℝ → ℝ → ℝ) (hlim : ∀ x, limiter x x = x) (qL qM qR : GasComplete d) (hr : qM.density ≠ 0) (hc : qM.speedOfSound ≠ 0) (hd : d ≤ 3)
    (hlin : primDiff (gasPrim qL) (gasPrim qM) = primDiff (gasPrim qM) (gasPrim qR)) (lambda : ℝ) (dir : Fin d) (rightSide : Bool) :
    charReconstruct3 limiter qL qM qR rightSide lambda dir (dir.castLE hd) =
      primComb (gasPrim qM) (if rightSide then -(1 / 2) else 1 / 2) (primDiff (gasPrim qM) (gasPrim qR)) (-(lambda / 2))
        (eulerPrimMatrix (gasPrim qM) qM.speedOfSound dir (primDiff (gasPrim qM) (gasPrim qR))) := by
  unfold charReconstruct3
  rw [muscl_char_predictor _ _ hr hc hd]
  have hrho : qM.density - qL.density = qR.density - qM.density := congrArg GasPrim.density hlin
  have hp : qM.pressure - qL.pressure = qR.pressure - qM.pressure := congrArg GasPrim.pressure hlin
  have hv : ∀ i : Fin 3, (toPrim3 qM).velocity i - (toPrim3 qL).velocity i = (toPrim3 qR).velocity i - (toPrim3 qM).velocity i := by
    intro i
    by_cases hi : i.1 < d
    · have := congrFun (congrArg GasPrim.velocity hlin) ⟨i.1, hi⟩
      simp only [toPrim3, hi, dif_pos]
      exact this
    · simp [toPrim3, hi]
  have hampl : ampl3 (toPrim3 qL) (toPrim3 qM) (qM.density * qM.speedOfSound) (1 / (qM.speedOfSound * qM.speedOfSound)) (dir.castLE hd) =
      ampl3 (toPrim3 qM) (toPrim3 qR) (qM.density * qM.speedOfSound) (1 / (qM.speedOfSound * qM.speedOfSound)) (dir.castLE hd) := by
    have hp' : (toPrim3 qM).pressure - (toPrim3 qL).pressure = (toPrim3 qR).pressure - (toPrim3 qM).pressure := hp
    have hrho' : (toPrim3 qM).density - (toPrim3 qL).density = (toPrim3 qR).density - (toPrim3 qM).density := hrho
    simp only [ampl3, hv, hp', hrho']
  have hs : slopes3 limiter (toPrim3 qL) (toPrim3 qM) (toPrim3 qR) (qM.density * qM.speedOfSound) (1 / (qM.speedOfSound * qM.speedOfSound)) (dir.castLE hd) =
      ampl3 (toPrim3 qM) (toPrim3 qR) (qM.density * qM.speedOfSound) (1 / (qM.speedOfSound * qM.speedOfSound)) (dir.castLE hd) := by
    unfold slopes3
    rw [hampl]
    simp only [hlim]
  have hD : charDifference (ampl3 (toPrim3 qM) (toPrim3 qR) (qM.density * qM.speedOfSound) (1 / (qM.speedOfSound * qM.speedOfSound)) (dir.castLE hd))
      (qM.density * qM.speedOfSound) (1 / (qM.speedOfSound * qM.speedOfSound)) (dir.castLE hd) d = primDiff (gasPrim qM) (gasPrim qR) := by
    unfold charDifference
    rw [muscl_char_roundtrip _ _ _ _ (mul_ne_zero hr hc)]
    ext i
    · rfl
    · simp only [lt_of_lt_of_le i.2 hd, dif_pos, toPrim3_velocity]; rfl
    · rfl
  rw [hs, hD]

/-- C116: the primitive and the characteristic method reconstruct the same states from data that are linear in the primitive variables, if the jumps are above the
threshold of the primitive limiter (or zero). -/
theorem muscl_char_eq_prim (eps : ℝ) (he : 0 ≤ eps) (limiter : ℝ → ℝ → ℝ) (hlim : ∀ x, limiter x x = x) (qL qM qR : GasComplete d) (hr : qM.density ≠ 0)
    (hc : qM.speedOfSound ≠ 0) (hd : d ≤ 3) (hlin : primDiff (gasPrim qL) (gasPrim qM) = primDiff (gasPrim qM) (gasPrim qR))
    (hj : ∀ x ∈ [qR.density - qM.density, qR.pressure - qM.pressure] ++ List.ofFn (fun i => gasVelocity qR i - gasVelocity qM i), x = 0 ∨ eps < |x|)
    (lambda : ℝ) (dir : Fin d) :
    charReconstruct3 limiter qL qM qR false lambda dir (dir.castLE hd) = primRecLeft (gasPrim qM) (primSlopes eps (gasPrim qL) (gasPrim qM) (gasPrim qR)) qM.speedOfSound lambda dir ∧
      charReconstruct3 limiter qL qM qR true lambda dir (dir.castLE hd) =
        primRecRight (gasPrim qM) (primSlopes eps (gasPrim qL) (gasPrim qM) (gasPrim qR)) qM.speedOfSound lambda dir := by
  have key : ∀ a b c : ℝ, b - a = c - b → (c - b = 0 ∨ eps < |c - b|) → primLimiter eps a b c = c - b := by
    intro a b c h hz
    rcases hz with hz | hz
    · rw [hz]; exact primLimiter_extremum (by rw [hz]; simp)
    · rw [← h] at hz ⊢
      exact (muscl_prim_limiter eps a b c he).2.2.2.1 h.symm hz
  have hs : primSlopes eps (gasPrim qL) (gasPrim qM) (gasPrim qR) = primDiff (gasPrim qM) (gasPrim qR) := by
    ext i
    · exact key _ _ _ (congrArg GasPrim.density hlin) (hj _ (by simp [gasPrim]))
    · exact key _ _ _ (congrFun (congrArg GasPrim.velocity hlin) i) (hj _ (by simp [gasPrim]))
    · exact key _ _ _ (congrArg GasPrim.pressure hlin) (hj _ (by simp [gasPrim]))
  rw [hs, (muscl_prim_predictor _ _ _ _ _).1, (muscl_prim_predictor _ _ _ _ _).2, muscl_char_linear limiter hlim qL qM qR hr hc hd hlin,
    muscl_char_linear limiter hlim qL qM qR hr hc hd hlin]
  exact ⟨rfl, rfl⟩

theorem vanLeer_self (x : ℝ) : vanLeer x x = x := by
  unfold vanLeer
  by_cases hx : x = 0
  · subst hx; simp
  · have : 0 < 2 * x * x := by have := mul_self_pos.2 hx; linarith
    simp only [this, if_true]
    field_simp
    ring

/-- Non-vacuity: the default limiter satisfies the hypotheses on limiters of this section. -/
theorem vanLeer_hyps : (∀ x : ℝ, vanLeer x x = x) ∧ (∀ x y : ℝ, vanLeer x y = vanLeer y x) ∧ (∀ x y : ℝ, vanLeer (-x) (-y) = -vanLeer x y) ∧
    (∀ x : ℝ, vanLeer 0 x = 0) ∧ ∀ x y : ℝ, vanLeerArray x y = vanLeer x y := by
  refine ⟨vanLeer_self, ?_, ?_, ?_, fun _ _ => rfl⟩
  · intro x y
    unfold vanLeer
    dsimp only
    rw [show 2 * x * y = 2 * y * x by ring, add_comm]
  · intro x y
    unfold vanLeer
    dsimp only
    rw [show 2 * -x * -y = 2 * x * y by ring, show -x + -y = -(x + y) by ring, div_neg]
    split
    · rfl
    · simp
  · intro x; simp [vanLeer]

/-- C116: consistency: in a constant flow the flux is the Euler flux, for every time step and every limiter that vanishes for zero differences. -/
theorem muscl_char_consistent {eq : GasEq} (hv : eq.Valid) {q : GasComplete d} (hq : IsGasState eq q) (limiter : ℝ → ℝ → ℝ) (hlim : limiter 0 0 = 0) (hd : d ≤ 3)
    (lambda : ℝ) (dir : Fin d) : gasFlux q dir = some (musclCharFlux eq limiter lambda dir (dir.castLE hd) q q q q) := by
  have hrec : ∀ side, charReconstruct3 limiter q q q side lambda dir (dir.castLE hd) = gasPrim q := by
    intro side
    unfold charReconstruct3
    rw [muscl_char_predictor _ _ hq.density_pos.ne' hq.sound_pos.ne' hd]
    have hs : slopes3 limiter (toPrim3 q) (toPrim3 q) (toPrim3 q) (q.density * q.speedOfSound) (1 / (q.speedOfSound * q.speedOfSound)) (dir.castLE hd) = ⟨0, 0, 0, 0, 0⟩ := by
      simp [slopes3, ampl3, hlim]
    rw [hs]
    have hz : charDifference ⟨0, 0, 0, 0, 0⟩ (q.density * q.speedOfSound) (1 / (q.speedOfSound * q.speedOfSound)) (dir.castLE hd) d = ⟨0, fun _ => 0, 0⟩ := by
      ext i <;> simp [charDifference, recombine3]
    rw [hz]
    ext i
    · simp [primComb, eulerPrimMatrix]
    · by_cases hi : i = dir <;> simp [primComb, eulerPrimMatrix, hi]
    · simp [primComb, eulerPrimMatrix]
  unfold musclCharFlux
  rw [hrec, hrec]
  obtain ⟨h1, -, h3, h4, -⟩ := gas_prim_roundtrip eq hv (gasPrim q) hq.density_pos hq.pressure_pos
  have : gasFromPrimArray eq (gasPrim q) = q := by
    rw [h4]; exact gasState_prim_ext h1 hq h3
  rw [this]
  exact (hllem_array_consistent hv hq true dir).1

theorem gasFromPrimArray_mirror (eq : GasEq) (dir : Fin d) (w : GasPrim d) : gasFromPrimArray eq (mirrorPrim dir w) = mirrorGas dir (gasFromPrimArray eq w) := by
  ext i
  · rfl
  · simp only [gasFromPrimArray, mirrorPrim, mirrorGas]
    by_cases hi : i = dir <;> simp [hi]
  · simp only [gasFromPrimArray, mirrorPrim, mirrorGas, gasKinetic]
    have : ∀ i, (w.density * (if i = dir then -w.velocity i else w.velocity i)) * (w.density * (if i = dir then -w.velocity i else w.velocity i)) =
        w.density * w.velocity i * (w.density * w.velocity i) := by
      intro i; by_cases hi : i = dir <;> simp [hi]
    simp only [this]
  · rfl
  · rfl

/-- C116: mirror symmetry in one and two space dimensions for symmetric and odd limiters: the flux of the mirrored stencil is the mirrored flux. -/
theorem muscl_char_mirror_partial (eq : GasEq) (limiter : ℝ → ℝ → ℝ) (hsymm : ∀ x y, limiter x y = limiter y x) (hodd : ∀ x y, limiter (-x) (-y) = -limiter x y)
    (lambda : ℝ) (hd3 : d ≠ 3) (hd : d ≤ 3) (dir : Fin d) (q0 q1 q2 q3 : GasComplete d) (h1 : q1.density ≠ 0 ∧ q1.speedOfSound ≠ 0) (h2 : q2.density ≠ 0 ∧ q2.speedOfSound ≠ 0) :
    musclCharFlux eq limiter lambda dir (dir.castLE hd) (mirrorGas dir q3) (mirrorGas dir q2) (mirrorGas dir q1) (mirrorGas dir q0) =
      mirrorFlux dir (musclCharFlux eq limiter lambda dir (dir.castLE hd) q0 q1 q2 q3) := by
  have h3 : ∀ i : Fin d, i.1 < 3 := fun i => lt_of_lt_of_le i.2 hd
  have key : ∀ (l m r : GasComplete d), m.density ≠ 0 → m.speedOfSound ≠ 0 → ∀ side,
      charReconstruct3 limiter (mirrorGas dir r) (mirrorGas dir m) (mirrorGas dir l) side lambda dir (dir.castLE hd) =
        mirrorPrim dir (charReconstruct3 limiter l m r (!side) lambda dir (dir.castLE hd)) := by
    intro l m r hr hc side
    unfold charReconstruct3
    rw [muscl_char_predictor _ (mirrorGas dir m) hr hc hd, muscl_char_predictor _ m hr hc hd]
    show primComb (gasPrim (mirrorGas dir m)) _ (charDifference (slopes3 limiter (toPrim3 (mirrorGas dir r)) (toPrim3 (mirrorGas dir m)) (toPrim3 (mirrorGas dir l))
      (m.density * m.speedOfSound) (1 / (m.speedOfSound * m.speedOfSound)) (dir.castLE hd)) (m.density * m.speedOfSound) (1 / (m.speedOfSound * m.speedOfSound)) (dir.castLE hd) d)
      _ (eulerPrimMatrix (gasPrim (mirrorGas dir m)) m.speedOfSound dir (charDifference (slopes3 limiter (toPrim3 (mirrorGas dir r)) (toPrim3 (mirrorGas dir m))
        (toPrim3 (mirrorGas dir l)) (m.density * m.speedOfSound) (1 / (m.speedOfSound * m.speedOfSound)) (dir.castLE hd)) (m.density * m.speedOfSound)
        (1 / (m.speedOfSound * m.speedOfSound)) (dir.castLE hd) d)) = _
    generalize m.density * m.speedOfSound = rhoc
    generalize 1 / (m.speedOfSound * m.speedOfSound) = ooc2
    have hvel : ∀ (q : GasComplete d) (i : Fin 3), (toPrim3 (mirrorGas dir q)).velocity i = if i = dir.castLE hd then -(toPrim3 q).velocity i else (toPrim3 q).velocity i := by
      intro q i
      by_cases hi : i.1 < d
      · by_cases he : i = dir.castLE hd
        · have hv : i.1 = dir.1 := by rw [he]; rfl
          have : (⟨i.1, hi⟩ : Fin d) = dir := Fin.ext hv
          rw [if_pos he]
          simp only [toPrim3, hi, dif_pos, mirrorGas, this, if_true, neg_div]
        · have : ¬ (⟨i.1, hi⟩ : Fin d) = dir := by
            intro h
            have hv : i.1 = dir.1 := by rw [← h]
            exact he (Fin.ext hv)
          simp only [toPrim3, hi, dif_pos, he, if_false, mirrorGas, this]
      · simp [toPrim3, hi]
    have hn1 : ∀ i : Fin 3, i + 1 ≠ i := by decide
    have hn2 : ∀ i : Fin 3, i + 2 ≠ i := by decide
    have hampl : ∀ a b : GasComplete d, ampl3 (toPrim3 (mirrorGas dir a)) (toPrim3 (mirrorGas dir b)) rhoc ooc2 (dir.castLE hd) =
        ⟨-(ampl3 (toPrim3 b) (toPrim3 a) rhoc ooc2 (dir.castLE hd)).plus, -(ampl3 (toPrim3 b) (toPrim3 a) rhoc ooc2 (dir.castLE hd)).zero,
          -(ampl3 (toPrim3 b) (toPrim3 a) rhoc ooc2 (dir.castLE hd)).minus, -(ampl3 (toPrim3 b) (toPrim3 a) rhoc ooc2 (dir.castLE hd)).v,
          -(ampl3 (toPrim3 b) (toPrim3 a) rhoc ooc2 (dir.castLE hd)).w⟩ := by
      intro a b
      have e1 : (toPrim3 (mirrorGas dir a)).pressure = (toPrim3 a).pressure := rfl
      have e2 : (toPrim3 (mirrorGas dir b)).pressure = (toPrim3 b).pressure := rfl
      have e3 : (toPrim3 (mirrorGas dir a)).density = (toPrim3 a).density := rfl
      have e4 : (toPrim3 (mirrorGas dir b)).density = (toPrim3 b).density := rfl
      ext <;> simp only [ampl3, hvel, e1, e2, e3, e4, if_true, hn1, hn2, if_false] <;> ring
    have hs : slopes3 limiter (toPrim3 (mirrorGas dir r)) (toPrim3 (mirrorGas dir m)) (toPrim3 (mirrorGas dir l)) rhoc ooc2 (dir.castLE hd) =
        (fun s : Chars3 => (⟨-s.plus, -s.zero, -s.minus, -s.v, -s.w⟩ : Chars3)) (slopes3 limiter (toPrim3 l) (toPrim3 m) (toPrim3 r) rhoc ooc2 (dir.castLE hd)) := by
      unfold slopes3
      simp only [hampl, hodd]
      ext <;> simp only [neg_inj] <;> exact hsymm _ _
    rw [hs]
    generalize slopes3 limiter (toPrim3 l) (toPrim3 m) (toPrim3 r) rhoc ooc2 (dir.castLE hd) = s
    have hdir : (⟨dir.1, h3 dir⟩ : Fin 3) = dir.castLE hd := rfl
    have hne : ∀ i : Fin d, i ≠ dir → ¬ ((⟨i.1, h3 i⟩ : Fin 3) = dir.castLE hd) := by
      intro i hi h
      have hv : i.1 = dir.1 := by
        have := Fin.ext_iff.1 h
        exact this
      exact hi (Fin.ext hv)
    have hD : charDifference ⟨-s.plus, -s.zero, -s.minus, -s.v, -s.w⟩ rhoc ooc2 (dir.castLE hd) d =
        ⟨-(charDifference s rhoc ooc2 (dir.castLE hd) d).density,
          fun i => if i = dir then (charDifference s rhoc ooc2 (dir.castLE hd) d).velocity i else -(charDifference s rhoc ooc2 (dir.castLE hd) d).velocity i,
          -(charDifference s rhoc ooc2 (dir.castLE hd) d).pressure⟩ := by
      ext i
      · simp only [charDifference, recombine3]; ring
      · simp only [charDifference, recombine3, h3, dif_pos]
        by_cases hi : i = dir
        · subst hi; simp only [hdir, if_true]; ring
        · simp only [hne i hi, hi, if_false]
          split <;> rfl
      · simp only [charDifference, recombine3]; ring
    simp only [hD]
    generalize charDifference s rhoc ooc2 (dir.castLE hd) d = D
    rw [gasPrim_mirror]
    generalize gasPrim m = w
    have hsgn : (if side then -(1 / 2 : ℝ) else 1 / 2) = -(if (!side) then -(1 / 2 : ℝ) else 1 / 2) := by cases side <;> simp
    rw [hsgn]
    generalize (if (!side) then -(1 / 2 : ℝ) else 1 / 2) = t
    ext i
    · simp only [primComb, eulerPrimMatrix, mirrorPrim, if_true]; ring
    · simp only [primComb, eulerPrimMatrix, mirrorPrim, if_true]
      by_cases hi : i = dir
      · subst hi; simp only [if_true]; ring
      · simp only [hi, if_false]; ring
    · simp only [primComb, eulerPrimMatrix, mirrorPrim, if_true]; ring
  unfold musclCharFlux
  rw [key q1 q2 q3 h2.1 h2.2, key q0 q1 q2 h1.1 h1.2, gasFromPrimArray_mirror, gasFromPrimArray_mirror, hllem_mirror_partial eq true hd3 dir]
  rfl

/-- C116: cut cells: if one of the three cells has no fluid and the limiter vanishes as soon as its first argument does, the slope is zero and both face states are the
state of the cell. If all have fluid, it is the reconstruction without cut cells. -/
theorem muscl_char_masked (limiter : ℝ → ℝ → ℝ) (pL pM pR : Prim3) (rhoc ooc2 volL volM volR : ℝ) (ix : Fin 3) :
    ((volL ≤ 0 ∨ volM ≤ 0 ∨ volR ≤ 0) → (∀ x, limiter 0 x = 0) → slopes3Masked limiter pL pM pR rhoc ooc2 volL volM volR ix = ⟨0, 0, 0, 0, 0⟩) ∧
      (0 < volL → 0 < volM → 0 < volR → slopes3Masked limiter pL pM pR rhoc ooc2 volL volM volR ix = slopes3 limiter pL pM pR rhoc ooc2 ix) := by
  constructor
  · intro h hl
    have : ¬ (0 < volL ∧ 0 < volM ∧ 0 < volR) := by
      rintro ⟨a, b, c⟩
      rcases h with h | h | h <;> linarith
    simp only [slopes3Masked, this, if_false, hl]
  · intro a b c
    simp only [slopes3Masked, slopes3, a, b, c, and_self, if_true]

/-- C116, limit: with the central slope as limiter (the array constructor accepts every function) a cell without fluid does influence the reconstruction: only the left
amplitudes are cleared. -/
theorem muscl_char_masked_central : (slopes3Masked (fun a b => 1 / 2 * (a + b)) ⟨1, fun _ => 0, 1⟩ ⟨1, fun _ => 0, 1⟩ ⟨5, fun _ => 0, 1⟩ 1 1 1 1 0 0).zero = 2 := by
  simp only [slopes3Masked, ampl3]
  norm_num

/-! ### C117 -/

/-- Specification: `a * x + b * y` for conservative states. -/
def consLin (a : ℝ) (x : GasCons d) (b : ℝ) (y : GasCons d) : GasCons d :=
  ⟨a * x.density + b * y.density, fun i => a * x.momentum i + b * y.momentum i, a * x.energy + b * y.energy⟩

/-- Specification: the flux at the left face of cell `j` of an infinite grid. -/
noncomputable def gridFlux (eq : GasEq) (dx eta0 k0 : ℝ) (U : ℤ → GasComplete 1) (j : ℤ) : GasCons 1 :=
  rkFaceFlux eq dx eta0 k0 (U (j - 2)) (U (j - 1)) (U j) (U (j + 1))

/-- Specification: a forward Euler step on the infinite grid. -/
noncomputable def eulerStep (eq : GasEq) (lambda dx eta0 k0 : ℝ) (U : ℤ → GasComplete 1) (j : ℤ) : GasCons 1 :=
  consLin 1 (U j).cons lambda (consLin 1 (gridFlux eq dx eta0 k0 U j) (-1) (gridFlux eq dx eta0 k0 U (j + 1)))

/-- Specification: the three stages of the Runge-Kutta method of Shu and Osher. -/
noncomputable def ssprk3 (eq : GasEq) (lambda dx eta0 k0 : ℝ) (U : ℤ → GasComplete 1) (j : ℤ) : GasCons 1 :=
  let U1 : ℤ → GasComplete 1 := fun j => gasCompleteArray eq (eulerStep eq lambda dx eta0 k0 U j)
  let U2 : ℤ → GasComplete 1 := fun j => gasCompleteArray eq (consLin (3 / 4) (U j).cons (1 / 4) (eulerStep eq lambda dx eta0 k0 U1 j))
  consLin (1 / 3) (U j).cons (2 / 3) (eulerStep eq lambda dx eta0 k0 U2 j)

theorem rk3Flux_eq (eq : GasEq) (lambda dx eta0 k0 : ℝ) (junk : GasComplete 1) (junkFlux : GasCons 1) (U : ℤ → GasComplete 1) (j : ℤ) :
    rk3Flux eq lambda dx eta0 k0 junk junkFlux (fun k => U (j - 6 + k)) =
      (let U1 : ℤ → GasComplete 1 := fun j => gasCompleteArray eq (eulerStep eq lambda dx eta0 k0 U j)
       let U2 : ℤ → GasComplete 1 := fun j => gasCompleteArray eq (consLin (3 / 4) (U j).cons (1 / 4) (eulerStep eq lambda dx eta0 k0 U1 j))
       consLin 1 (consLin (1 / 6) (gridFlux eq dx eta0 k0 U j) (1 / 6) (gridFlux eq dx eta0 k0 U1 j)) (2 / 3) (gridFlux eq dx eta0 k0 U2 j)) := by
  set U1 : ℤ → GasComplete 1 := fun j => gasCompleteArray eq (eulerStep eq lambda dx eta0 k0 U j) with hU1
  set U2 : ℤ → GasComplete 1 := fun j => gasCompleteArray eq (consLin (3 / 4) (U j).cons (1 / 4) (eulerStep eq lambda dx eta0 k0 U1 j)) with hU2
  have hf0 : ∀ i : ℕ, 2 ≤ i → rkFaceFlux eq dx eta0 k0 (U (j - 6 + ((i - 2 : ℕ) : ℤ))) (U (j - 6 + ((i - 1 : ℕ) : ℤ))) (U (j - 6 + (i : ℤ))) (U (j - 6 + ((i + 1 : ℕ) : ℤ))) =
      gridFlux eq dx eta0 k0 U (j - 6 + i) := by
    intro i hi
    unfold gridFlux
    congr 1
    · congr 1; omega
    · congr 1; omega
    · congr 1; push_cast; ring
  have hu1 : ∀ i : ℕ, gasCompleteArray eq (rkCombine 1 0 lambda (U (j - 6 + (i : ℤ))).cons (U (j - 6 + (i : ℤ))).cons (gridFlux eq dx eta0 k0 U (j - 6 + i))
      (gridFlux eq dx eta0 k0 U (j - 6 + ((i + 1 : ℕ) : ℤ)))) = U1 (j - 6 + i) := by
    intro i
    rw [hU1]
    show _ = gasCompleteArray eq (eulerStep eq lambda dx eta0 k0 U (j - 6 + i))
    congr 1
    unfold eulerStep
    have : j - 6 + ((i + 1 : ℕ) : ℤ) = j - 6 + (i : ℤ) + 1 := by push_cast; ring
    rw [this]
    ext <;> simp only [rkCombine, consLin] <;> ring
  have hf1 : ∀ i : ℕ, 2 ≤ i → rkFaceFlux eq dx eta0 k0 (U1 (j - 6 + ((i - 2 : ℕ) : ℤ))) (U1 (j - 6 + ((i - 1 : ℕ) : ℤ))) (U1 (j - 6 + (i : ℤ))) (U1 (j - 6 + ((i + 1 : ℕ) : ℤ))) =
      gridFlux eq dx eta0 k0 U1 (j - 6 + i) := by
    intro i hi
    unfold gridFlux
    congr 1
    · congr 1; omega
    · congr 1; omega
    · congr 1; push_cast; ring
  have hf2 : ∀ i : ℕ, 2 ≤ i → rkFaceFlux eq dx eta0 k0 (U2 (j - 6 + ((i - 2 : ℕ) : ℤ))) (U2 (j - 6 + ((i - 1 : ℕ) : ℤ))) (U2 (j - 6 + (i : ℤ))) (U2 (j - 6 + ((i + 1 : ℕ) : ℤ))) =
      gridFlux eq dx eta0 k0 U2 (j - 6 + i) := by
    intro i hi
    unfold gridFlux
    congr 1
    · congr 1; omega
    · congr 1; omega
    · congr 1; push_cast; ring
  have hu2 : ∀ i : ℕ, gasCompleteArray eq (rkCombine (3 / 4) (1 / 4) (1 / 4 * lambda) (U (j - 6 + (i : ℤ))).cons (U1 (j - 6 + (i : ℤ))).cons (gridFlux eq dx eta0 k0 U1 (j - 6 + i))
      (gridFlux eq dx eta0 k0 U1 (j - 6 + ((i + 1 : ℕ) : ℤ)))) = U2 (j - 6 + i) := by
    intro i
    rw [hU2]
    show _ = gasCompleteArray eq (consLin (3 / 4) (U (j - 6 + i)).cons (1 / 4) (eulerStep eq lambda dx eta0 k0 U1 (j - 6 + i)))
    congr 1
    unfold eulerStep
    have : j - 6 + ((i + 1 : ℕ) : ℤ) = j - 6 + (i : ℤ) + 1 := by push_cast; ring
    rw [this]
    ext <;> simp only [rkCombine, consLin] <;> ring
  show rk3Flux eq lambda dx eta0 k0 junk junkFlux (fun k => U (j - 6 + k)) =
    consLin 1 (consLin (1 / 6) (gridFlux eq dx eta0 k0 U j) (1 / 6) (gridFlux eq dx eta0 k0 U1 j)) (2 / 3) (gridFlux eq dx eta0 k0 U2 j)
  clear_value U1 U2
  unfold rk3Flux
  dsimp only
  have e6 : j - 6 + ((6 : ℕ) : ℤ) = j := by push_cast; ring
  generalize hg0 : (fun i : ℕ => if 2 ≤ i ∧ i < 11 then rkFaceFlux eq dx eta0 k0 (U (j - 6 + ((i - 2 : ℕ) : ℤ))) (U (j - 6 + ((i - 1 : ℕ) : ℤ))) (U (j - 6 + (i : ℤ)))
      (U (j - 6 + ((i + 1 : ℕ) : ℤ))) else junkFlux) = g0
  have k0' : ∀ i : ℕ, 2 ≤ i → i < 11 → g0 i = gridFlux eq dx eta0 k0 U (j - 6 + i) := by
    intro i h1 h2
    rw [← hg0]
    dsimp only
    rw [if_pos ⟨h1, h2⟩, hf0 i h1]
  have k0c : ∀ i : ℕ, (if 2 ≤ i ∧ i < 11 then rkFaceFlux eq dx eta0 k0 (U (j - 6 + ((i - 2 : ℕ) : ℤ))) (U (j - 6 + ((i - 1 : ℕ) : ℤ))) (U (j - 6 + (i : ℤ)))
      (U (j - 6 + ((i + 1 : ℕ) : ℤ))) else junkFlux) = g0 i := fun i => by rw [← hg0]
  simp only [k0c]
  generalize hv1 : (fun i : ℕ => if 2 ≤ i ∧ i < 10 then gasCompleteArray eq (rkCombine 1 0 lambda (U (j - 6 + (i : ℤ))).cons (U (j - 6 + (i : ℤ))).cons (g0 i) (g0 (i + 1)))
      else junk) = v1
  have k1 : ∀ i : ℕ, 2 ≤ i → i < 10 → v1 i = U1 (j - 6 + i) := by
    intro i h1 h2
    rw [← hv1]
    dsimp only
    rw [if_pos ⟨h1, h2⟩, k0' i h1 (by omega), k0' (i + 1) (by omega) (by omega), hu1 i]
  have k1c : ∀ i : ℕ, (if 2 ≤ i ∧ i < 10 then gasCompleteArray eq (rkCombine 1 0 lambda (U (j - 6 + (i : ℤ))).cons (U (j - 6 + (i : ℤ))).cons (g0 i) (g0 (i + 1)))
      else junk) = v1 i := fun i => by rw [← hv1]
  simp only [k1c]
  generalize hg1 : (fun i : ℕ => if 4 ≤ i ∧ i < 9 then rkFaceFlux eq dx eta0 k0 (v1 (i - 2)) (v1 (i - 1)) (v1 i) (v1 (i + 1)) else junkFlux) = g1
  have k2 : ∀ i : ℕ, 4 ≤ i → i < 9 → g1 i = gridFlux eq dx eta0 k0 U1 (j - 6 + i) := by
    intro i h1 h2
    rw [← hg1]
    dsimp only
    rw [if_pos ⟨h1, h2⟩, k1 (i - 2) (by omega) (by omega), k1 (i - 1) (by omega) (by omega), k1 i (by omega) (by omega), k1 (i + 1) (by omega) (by omega),
      hf1 i (by omega)]
  have k2c : ∀ i : ℕ, (if 4 ≤ i ∧ i < 9 then rkFaceFlux eq dx eta0 k0 (v1 (i - 2)) (v1 (i - 1)) (v1 i) (v1 (i + 1)) else junkFlux) = g1 i := fun i => by rw [← hg1]
  simp only [k2c]
  generalize hv2 : (fun i : ℕ => if 4 ≤ i ∧ i < 8 then gasCompleteArray eq (rkCombine (3 / 4) (1 / 4) (1 / 4 * lambda) (U (j - 6 + (i : ℤ))).cons (v1 i).cons (g1 i) (g1 (i + 1)))
      else junk) = v2
  have k3 : ∀ i : ℕ, 4 ≤ i → i < 8 → v2 i = U2 (j - 6 + i) := by
    intro i h1 h2
    rw [← hv2]
    dsimp only
    rw [if_pos ⟨h1, h2⟩, k2 i h1 (by omega), k2 (i + 1) (by omega) (by omega), k1 i (by omega) (by omega), hu2 i]
  have k3c : ∀ i : ℕ, (if 4 ≤ i ∧ i < 8 then gasCompleteArray eq (rkCombine (3 / 4) (1 / 4) (1 / 4 * lambda) (U (j - 6 + (i : ℤ))).cons (v1 i).cons (g1 i) (g1 (i + 1)))
      else junk) = v2 i := fun i => by rw [← hv2]
  simp only [k3c]
  have h66 : (6 ≤ 6 ∧ 6 < 7) := ⟨le_rfl, by omega⟩
  rw [if_pos h66]
  rw [k0' 6 (by omega) (by omega), k2 6 (by omega) (by omega), k3 (6 - 2) (by omega) (by omega), k3 (6 - 1) (by omega) (by omega), k3 6 (by omega) (by omega),
    k3 (6 + 1) (by omega) (by omega), hf2 6 (by omega), e6]
  ext <;> simp only [consLin] <;> ring

/-- C117: every face computes its flux from its twelve cells alone, and neighbouring faces compute the intermediate states again. On the whole grid the conservative
update with these fluxes is exactly the three stage strong stability preserving Runge-Kutta method; nothing outside of the computed part of the local arrays is used. -/
theorem rk3_local_is_global (eq : GasEq) (lambda dx eta0 k0 : ℝ) (junk junk' : GasComplete 1) (junkFlux junkFlux' : GasCons 1) (U : ℤ → GasComplete 1) (j : ℤ) :
    consLin 1 (U j).cons lambda (consLin 1 (rk3Flux eq lambda dx eta0 k0 junk junkFlux (fun k => U (j - 6 + k))) (-1)
      (rk3Flux eq lambda dx eta0 k0 junk' junkFlux' (fun k => U (j + 1 - 6 + k)))) = ssprk3 eq lambda dx eta0 k0 U j := by
  rw [rk3Flux_eq, rk3Flux_eq]
  unfold ssprk3
  dsimp only
  have hcons : ∀ v : GasCons 1, (gasCompleteArray eq v).cons = v := fun v => rfl
  set U1 : ℤ → GasComplete 1 := fun j => gasCompleteArray eq (eulerStep eq lambda dx eta0 k0 U j) with hU1
  have h1 : (U1 j).cons = eulerStep eq lambda dx eta0 k0 U j := rfl
  have hE1 : eulerStep eq lambda dx eta0 k0 U1 j = consLin 1 (U1 j).cons lambda (consLin 1 (gridFlux eq dx eta0 k0 U1 j) (-1) (gridFlux eq dx eta0 k0 U1 (j + 1))) := rfl
  rw [h1] at hE1
  set U2 : ℤ → GasComplete 1 := fun j => gasCompleteArray eq (consLin (3 / 4) (U j).cons (1 / 4) (eulerStep eq lambda dx eta0 k0 U1 j)) with hU2
  have h2 : (U2 j).cons = consLin (3 / 4) (U j).cons (1 / 4) (eulerStep eq lambda dx eta0 k0 U1 j) := rfl
  have hE2 : eulerStep eq lambda dx eta0 k0 U2 j = consLin 1 (U2 j).cons lambda (consLin 1 (gridFlux eq dx eta0 k0 U2 j) (-1) (gridFlux eq dx eta0 k0 U2 (j + 1))) := rfl
  rw [h2, hE1] at hE2
  rw [hE2]
  have hE0 : eulerStep eq lambda dx eta0 k0 U j = consLin 1 (U j).cons lambda (consLin 1 (gridFlux eq dx eta0 k0 U j) (-1) (gridFlux eq dx eta0 k0 U (j + 1))) := rfl
  rw [hE0]
  ext <;> simp only [consLin] <;> ring

theorem cellToEdge_const (x : ℝ) : cellToEdge x x x x = x := by unfold cellToEdge; ring

/-- C117: the interpolation to faces is exact for constant and linear data and symmetric. It is not exact for the cell averages of a parabola (the value at the face is 0,
the result is less than -1), so the method is of second order in space. It is not positive: the density at the face of positive densities can be negative. -/
theorem rk3_interpolation : (∀ a b : ℝ, cellToEdge (a - 3 / 2 * b) (a - 1 / 2 * b) (a + 1 / 2 * b) (a + 3 / 2 * b) = a) ∧
    (∀ ll l r rr : ℝ, cellToEdge ll l r rr = cellToEdge rr r l ll) ∧ cellToEdge (7 / 3) (1 / 3) (1 / 3) (7 / 3) < -1 ∧ cellToEdge 10 1 1 10 < 0 := by
  refine ⟨?_, ?_, ?_, ?_⟩
  · intro a b; unfold cellToEdge; ring
  · intro ll l r rr; unfold cellToEdge; ring
  · unfold cellToEdge; norm_num
  · unfold cellToEdge; norm_num

/-- C117: consistency: in a constant flow the flux is the Euler flux of the state, without diffusion, for every time step and all coefficients. -/
theorem rk3_consistent {eq : GasEq} (hv : eq.Valid) {q : GasComplete 1} (hq : IsGasState eq q) (lambda dx eta0 k0 : ℝ) (junk : GasComplete 1) (junkFlux : GasCons 1) :
    gasFlux q 0 = some (rk3Flux eq lambda dx eta0 k0 junk junkFlux fun _ => q) := by
  have hc : gasCompleteArray eq q.cons = q := (gas_cons_roundtrip eq hv q hq).2.1
  have hface : rkFaceFlux eq dx eta0 k0 q q q q = gasFluxArray q 0 := by
    unfold rkFaceFlux
    have : gasToEdge q.cons q.cons q.cons q.cons = q.cons := by
      unfold gasToEdge
      simp only [cellToEdge_const]
    simp only [this, hc]
    ext <;> simp [rkDiffusion]
  have hgrid : ∀ j : ℤ, gridFlux eq dx eta0 k0 (fun _ => q) j = gasFluxArray q 0 := fun j => hface
  have hstep : ∀ j : ℤ, eulerStep eq lambda dx eta0 k0 (fun _ => q) j = q.cons := by
    intro j
    unfold eulerStep
    rw [hgrid, hgrid]
    ext <;> simp only [consLin] <;> ring
  have h := rk3Flux_eq eq lambda dx eta0 k0 junk junkFlux (fun _ => q) 0
  dsimp only at h
  rw [h]
  have e1 : (fun j : ℤ => gasCompleteArray eq (eulerStep eq lambda dx eta0 k0 (fun _ => q) j)) = fun _ => q := by
    funext j; rw [hstep, hc]
  rw [e1]
  have e2 : (fun j : ℤ => gasCompleteArray eq (consLin (3 / 4) q.cons (1 / 4) (eulerStep eq lambda dx eta0 k0 (fun _ => q) j))) = fun _ => q := by
    funext j
    rw [hstep]
    have : consLin (3 / 4) q.cons (1 / 4) q.cons = q.cons := by ext <;> simp only [consLin] <;> ring
    rw [this, hc]
  rw [e2, hgrid]
  have h3 : consLin 1 (consLin (1 / 6) (gasFluxArray q 0) (1 / 6) (gasFluxArray q 0)) (2 / 3) (gasFluxArray q 0) = gasFluxArray q 0 := by
    ext <;> simp only [consLin] <;> ring
  rw [h3]
  unfold gasFlux
  rw [if_pos hq.density_pos]
  rfl

/-- C117: diffusion acts in the right direction: with a viscosity and a conductivity that are not negative, momentum flows towards the slower cell, and between cells
of the same velocity heat flows towards the colder cell. No mass is diffused. -/
theorem rk3_diffusion_direction (eq : GasEq) (qL qR qEdge : GasComplete 1) (dx eta0 k0 : ℝ) (hdx : 0 < dx) (he : 0 ≤ eta0) (hk : 0 ≤ k0) :
    (rkDiffusion eq qL qR qEdge dx eta0 k0).density = 0 ∧
      (gasVelocity qL 0 ≤ gasVelocity qR 0 → -(rkDiffusion eq qL qR qEdge dx eta0 k0).momentum 0 ≤ 0) ∧
      (gasVelocity qR 0 ≤ gasVelocity qL 0 → 0 ≤ -(rkDiffusion eq qL qR qEdge dx eta0 k0).momentum 0) ∧
      (gasVelocity qR 0 = gasVelocity qL 0 → gasTemperature eq qL ≤ gasTemperature eq qR → -(rkDiffusion eq qL qR qEdge dx eta0 k0).energy ≤ 0) ∧
      (gasVelocity qR 0 = gasVelocity qL 0 → gasTemperature eq qR ≤ gasTemperature eq qL → 0 ≤ -(rkDiffusion eq qL qR qEdge dx eta0 k0).energy) := by
  have hs := Real.sqrt_nonneg (gasTemperature eq qEdge)
  unfold rkDiffusion
  dsimp only
  generalize Real.sqrt (gasTemperature eq qEdge) = s at *
  have h1 : 0 ≤ 4 / 3 * (eta0 * s) := by positivity
  have h2 : 0 ≤ k0 * s := by positivity
  refine ⟨rfl, ?_, ?_, ?_, ?_⟩
  · intro h
    have := mul_nonneg h1 (div_nonneg (sub_nonneg.2 h) hdx.le)
    linarith
  · intro h
    have := mul_nonpos_of_nonneg_of_nonpos h1 (div_nonpos_of_nonpos_of_nonneg (sub_nonpos.2 h) hdx.le)
    linarith
  · intro hu h
    rw [hu, sub_self, zero_div, mul_zero, zero_add]
    have := mul_nonneg h2 (div_nonneg (sub_nonneg.2 h) hdx.le)
    linarith
  · intro hu h
    rw [hu, sub_self, zero_div, mul_zero, zero_add]
    have := mul_nonpos_of_nonneg_of_nonpos h2 (div_nonpos_of_nonpos_of_nonneg (sub_nonpos.2 h) hdx.le)
    linarith

/-- C117: the time step keeps the acoustic waves of both cells at the face within one cell. -/
theorem rk3_stable_dt_partial (dx : ℝ) (hdx : 0 < dx) (u : ℕ → GasComplete 1) (h5 : 0 < (u 5).speedOfSound) :
    0 < rk3StableDt dx u ∧ ∀ i ∈ [5, 6], rk3StableDt dx u * (|gasVelocity (u i) 0| + (u i).speedOfSound) ≤ dx := by
  have hpos : 0 < max (|(u 5).momentum 0 / (u 5).density| + (u 5).speedOfSound) (|(u 6).momentum 0 / (u 6).density| + (u 6).speedOfSound) :=
    lt_of_lt_of_le (by positivity) (le_max_left _ _)
  refine ⟨div_pos hdx hpos, ?_⟩
  intro i hi
  have key : |gasVelocity (u i) 0| + (u i).speedOfSound ≤ max (|(u 5).momentum 0 / (u 5).density| + (u 5).speedOfSound) (|(u 6).momentum 0 / (u 6).density| + (u 6).speedOfSound) := by
    simp only [List.mem_cons, List.not_mem_nil, or_false] at hi
    rcases hi with rfl | rfl
    · exact le_max_left _ _
    · exact le_max_right _ _
  unfold rk3StableDt
  rw [div_mul_eq_mul_div, div_le_iff₀ hpos]
  exact mul_le_mul_of_nonneg_left key hdx.le

/-! ### Non-vacuity -/

/-- The consistency theorems apply to air. -/
example (lambda : ℝ) : musclPrimFlux (GasEq.new 287 (7 / 5)) (1 / 10 ^ 12) lambda 0 (thinAir 1) (thinAir 1) (thinAir 1) (thinAir 1) = gasFlux (thinAir 1) 0 :=
  muscl_prim_consistent (gasEq_new_valid 287 (7 / 5) (by norm_num)) (thinAir_facts 1 (by norm_num)).1 _ _ _

/-- The hypotheses of `muscl_char_eq_prim` hold for a density that grows linearly. -/
example : primDiff (gasPrim (thinAir 1)) (gasPrim (thinAir 2)) = primDiff (gasPrim (thinAir 2)) (gasPrim (thinAir 3)) ∧ (thinAir 2).density ≠ 0 ∧ (thinAir 2).speedOfSound ≠ 0 ∧
    ∀ x ∈ [(thinAir 3).density - (thinAir 2).density, (thinAir 3).pressure - (thinAir 2).pressure] ++ List.ofFn (fun i => gasVelocity (thinAir 3) i - gasVelocity (thinAir 2) i),
      x = 0 ∨ (1 / 10 ^ 12 : ℝ) < |x| := by
  have f1 := thinAir_facts 1 (by norm_num)
  have f2 := thinAir_facts 2 (by norm_num)
  have f3 := thinAir_facts 3 (by norm_num)
  refine ⟨?_, f2.1.density_pos.ne', f2.1.sound_pos.ne', ?_⟩
  · rw [f1.2.1, f2.2.1, f3.2.1]; ext <;> simp only [primDiff] <;> norm_num
  · intro x hx
    have v3 : ∀ i, gasVelocity (thinAir 3) i = -1 := fun i => congrFun (congrArg GasPrim.velocity f3.2.1) i
    have v2 : ∀ i, gasVelocity (thinAir 2) i = -1 := fun i => congrFun (congrArg GasPrim.velocity f2.2.1) i
    have d3 : (thinAir 3).density = 3 := rfl
    have d2 : (thinAir 2).density = 2 := rfl
    have p3 : (thinAir 3).pressure = 1 / 140 := rfl
    have p2 : (thinAir 2).pressure = 1 / 140 := rfl
    simp only [v3, v2, d3, d2, p3, p2, List.cons_append, List.nil_append, List.mem_cons, List.mem_ofFn] at hx
    rcases hx with rfl | rfl | ⟨i, rfl⟩
    · right; norm_num
    · left; norm_num
    · left; norm_num

end Fub
