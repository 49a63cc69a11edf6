import Verif.Spec.GasExact
import Verif.Lemmas.GasWave
import Verif.Props.Gas

/-! Lemmas for the exact Riemann solver of the perfect gas: the states behind shocks, rarefactions and inside of a rarefaction fan. -/

namespace Fub
open Finset
variable {d : ℕ}

theorem IsGasState.wave {eq : GasEq} (hv : eq.Valid) {q : GasComplete d} (h : IsGasState eq q) :
    WaveData eq.gamma q.density q.pressure q.speedOfSound := ⟨hv.one_lt, h.density_pos, h.pressure_pos, h.sound_pos, h.sound_sq⟩

theorem IsGasState.sound_eq {eq : GasEq} {q : GasComplete d} (h : IsGasState eq q) : q.speedOfSound = Real.sqrt (eq.gamma * q.pressure / q.density) := by
  rw [← h.sound_sq, mul_div_assoc, div_self h.density_pos.ne', mul_one, Real.sqrt_sq h.sound_pos.le]

theorem exactState_vel (eq : GasEq) (dir : Fin d) (side : GasComplete d) {rho : ℝ} (u p : ℝ) (hr : rho ≠ 0) (i : Fin d) :
    (exactState eq dir side rho u p).vel i = if i = dir then u else side.vel i := by
  simp only [exactState, GasComplete.vel]
  split <;> field_simp

theorem exactState_valid (eq : GasEq) (hv : eq.Valid) (dir : Fin d) (side : GasComplete d) {rho u p : ℝ} (hr : 0 < rho) (hp : 0 < p) :
    IsGasState eq (exactState eq dir side rho u p) := by
  have hg : 0 < eq.gamma := by linarith [hv.one_lt]
  have h1 : 0 < eq.gamma * p / rho := by positivity
  refine ⟨hr, hp, ?_, Real.sqrt_pos.2 h1, ?_⟩
  · simp only [exactState, gasKinetic_eq, hv.inv_eq]; ring
  · simp only [exactState, Real.sq_sqrt h1.le]; field_simp

/-- A gas state is determined by density, velocity and pressure. -/
theorem gasState_ext {eq : GasEq} {q q' : GasComplete d} (h : IsGasState eq q) (h' : IsGasState eq q') (hd : q.density = q'.density)
    (hv : ∀ i, q.vel i = q'.vel i) (hp : q.pressure = q'.pressure) : q = q' := by
  have hm : q.momentum = q'.momentum := by
    funext i
    have := hv i
    simp only [GasComplete.vel, ← hd] at this
    have h0 := h.density_pos.ne'
    field_simp at this
    exact this
  have he : q.energy = q'.energy := by rw [h.energy_eq, h'.energy_eq, hp, hm, hd]
  have ha : q.speedOfSound = q'.speedOfSound := by rw [h.sound_eq, h'.sound_eq, hp, hd]
  cases q; cases q'; simp_all

theorem gas_energy_vel {eq : GasEq} {q : GasComplete d} (h : IsGasState eq q) (dir : Fin d) :
    q.energy = q.pressure / (eq.gamma - 1) + q.density / 2 * (q.vel dir ^ 2 + ∑ i ∈ univ.erase dir, q.vel i ^ 2) := by
  rw [h.energy_eq, Finset.add_sum_erase _ (fun i => q.vel i ^ 2) (Finset.mem_univ dir)]
  have h0 := h.density_pos.ne'
  have e : ∑ i, q.momentum i ^ 2 = q.density ^ 2 * ∑ i, q.vel i ^ 2 := by
    rw [Finset.mul_sum]
    refine Finset.sum_congr rfl fun i _ => ?_
    rw [GasComplete.vel]; field_simp
  rw [e]; field_simp

theorem euler_unit (q : GasComplete d) (hq : q.density ≠ 0) (dir : Fin d) :
    (eulerNormalFlux q (unitVec dir)).density = q.density * q.vel dir ∧
    (∀ i, (eulerNormalFlux q (unitVec dir)).momentum i = q.density * q.vel i * q.vel dir + if i = dir then q.pressure else 0) ∧
    (eulerNormalFlux q (unitVec dir)).energy = (q.energy + q.pressure) * q.vel dir := by
  have e : ∑ i, q.momentum i / q.density * unitVec dir i = q.vel dir := by simp [unitVec, GasComplete.vel]
  refine ⟨by simp only [eulerNormalFlux, e], fun i => ?_, by simp only [eulerNormalFlux, e]⟩
  simp only [eulerNormalFlux, e]
  have : q.momentum i = q.density * q.vel i := by rw [GasComplete.vel]; field_simp
  rw [this]
  simp [unitVec]

/-- The jump conditions from those in the frame of the shock. -/
theorem rankineHugoniot_of {eq : GasEq} (hv : eq.Valid) {A B : GasComplete d} (hA : IsGasState eq A) (hB : IsGasState eq B) (dir : Fin d)
    (ht : ∀ i, i ≠ dir → A.vel i = B.vel i) {s : ℝ}
    (h1 : A.density * (A.vel dir - s) = B.density * (B.vel dir - s))
    (h2 : B.density * (B.vel dir - s) * (A.vel dir - B.vel dir) = -(A.pressure - B.pressure))
    (h3 : B.density * (B.vel dir - s) * (eq.gamma / (eq.gamma - 1) * (A.pressure / A.density) + (A.vel dir - s) ^ 2 / 2) =
      B.density * (B.vel dir - s) * (eq.gamma / (eq.gamma - 1) * (B.pressure / B.density) + (B.vel dir - s) ^ 2 / 2)) :
    RankineHugoniot dir A B s := by
  have a0 := hA.density_pos.ne'
  have b0 := hB.density_pos.ne'
  have g1 : eq.gamma - 1 ≠ 0 := by linarith [hv.one_lt]
  obtain ⟨fa1, fa2, fa3⟩ := euler_unit A a0 dir
  obtain ⟨fb1, fb2, fb3⟩ := euler_unit B b0 dir
  refine ⟨?_, fun i => ?_, ?_⟩
  · rw [fa1, fb1]; linear_combination h1
  · rw [fa2, fb2]
    have mA : A.momentum i = A.density * A.vel i := by rw [GasComplete.vel]; field_simp
    have mB : B.momentum i = B.density * B.vel i := by rw [GasComplete.vel]; field_simp
    rw [mA, mB]
    by_cases hi : i = dir
    · subst hi
      rw [if_pos rfl, if_pos rfl]
      linear_combination A.vel i * h1 + h2
    · rw [if_neg hi, if_neg hi, ht i hi]
      linear_combination B.vel i * h1
  · rw [fa3, fb3, gas_energy_vel hA dir, gas_energy_vel hB dir]
    have hT : ∑ i ∈ univ.erase dir, A.vel i ^ 2 = ∑ i ∈ univ.erase dir, B.vel i ^ 2 :=
      Finset.sum_congr rfl fun i hi => by rw [ht i (Finset.ne_of_mem_erase hi)]
    rw [hT]
    generalize ∑ i ∈ univ.erase dir, B.vel i ^ 2 = T
    -- the enthalpy terms with the densities multiplied out
    have eA : A.density * (A.vel dir - s) * (A.pressure / A.density) = A.pressure * (A.vel dir - s) := by field_simp
    have eB : B.density * (B.vel dir - s) * (B.pressure / B.density) = B.pressure * (B.vel dir - s) := by field_simp
    have h4 : eq.gamma / (eq.gamma - 1) * (A.pressure * (A.vel dir - s)) + B.density * (B.vel dir - s) * ((A.vel dir - s) ^ 2 / 2) =
        eq.gamma / (eq.gamma - 1) * (B.pressure * (B.vel dir - s)) + B.density * (B.vel dir - s) * ((B.vel dir - s) ^ 2 / 2) := by
      rw [← eA, ← eB, h1]; linear_combination h3
    have hg : eq.gamma / (eq.gamma - 1) = 1 + 1 / (eq.gamma - 1) := by field_simp; ring
    rw [hg] at h4
    rw [div_eq_mul_one_div A.pressure, div_eq_mul_one_div B.pressure]
    generalize 1 / (eq.gamma - 1) = G at h4
    generalize A.vel dir = uA at *
    generalize B.vel dir = uB at *
    linear_combination h4 + (T / 2 + uA ^ 2 / 2) * h1 + s * h2

/-- Speed of a shock relative to the gas in front of it: `w`, and behind it: `w - φ`. -/
theorem shock_scalar {g rho p a x : ℝ} (h : WaveData g rho p a) (hx : p < x) :
    ∃ w phi rho', w = a * Real.sqrt (((g + 1) * (x / p) + (g - 1)) / (2 * g)) ∧ phi = gasWave g rho p a x ∧
      rho' = rho * (x / p + (g - 1) / (g + 1)) / ((g - 1) / (g + 1) * (x / p) + 1) ∧ 0 < rho' ∧ 0 < phi ∧ phi < w ∧
      rho' * (w - phi) = rho * w ∧ rho * w * phi = x - p ∧
      g / (g - 1) * (x / rho') + (w - phi) ^ 2 / 2 = g / (g - 1) * (p / rho) + w ^ 2 / 2 ∧
      a < w ∧ (w - phi) ^ 2 * rho' < g * x := by
  have hg := h.g1; have hr := h.rho0; have hp := h.p0; have ha := h.a0
  have hgm : 0 < g - 1 := by linarith
  have hgp : 0 < g + 1 := by linarith
  have hg0 : 0 < g := by linarith
  have hx0 : 0 < x := hp.trans hx
  have hK : 0 < (g + 1) * x + (g - 1) * p := by positivity
  have hN : 0 < (g - 1) * x + (g + 1) * p := by positivity
  -- square of w
  have e1 : 0 < ((g + 1) * (x / p) + (g - 1)) / (2 * g) := by positivity
  refine ⟨_, _, _, rfl, rfl, rfl, ?_⟩
  have hw0 : 0 < a * Real.sqrt (((g + 1) * (x / p) + (g - 1)) / (2 * g)) := mul_pos ha (Real.sqrt_pos.2 e1)
  have hw2 : (a * Real.sqrt (((g + 1) * (x / p) + (g - 1)) / (2 * g))) ^ 2 * (2 * rho) = (g + 1) * x + (g - 1) * p := by
    rw [mul_pow, Real.sq_sqrt e1.le]
    have : a ^ 2 * (((g + 1) * (x / p) + (g - 1)) / (2 * g)) * (2 * rho) = (a ^ 2 * rho) * (((g + 1) * (x / p) + (g - 1)) / g) := by ring
    rw [this, h.sq]; field_simp
  have hphi : gasWave g rho p a x = (x - p) / (rho * (a * Real.sqrt (((g + 1) * (x / p) + (g - 1)) / (2 * g)))) := by
    rw [gasWave, if_pos hx, div_eq_mul_one_div (x - p)]
    congr 1
    rw [Real.sqrt_eq_iff_mul_self_eq (h.shock_root hx0.le).le (by positivity)]
    generalize a * Real.sqrt (((g + 1) * (x / p) + (g - 1)) / (2 * g)) = w at *
    have e2 : 2 / ((g + 1) * rho) / (x + (g - 1) / (g + 1) * p) = 2 / (rho * ((g + 1) * x + (g - 1) * p)) := by field_simp
    rw [e2, ← hw2]
    field_simp
  rw [hphi]
  have hrho : rho * (x / p + (g - 1) / (g + 1)) / ((g - 1) / (g + 1) * (x / p) + 1) = rho * ((g + 1) * x + (g - 1) * p) / ((g - 1) * x + (g + 1) * p) := by
    field_simp
  rw [hrho]
  generalize a * Real.sqrt (((g + 1) * (x / p) + (g - 1)) / (2 * g)) = w at *
  have hphi0 : 0 < (x - p) / (rho * w) := div_pos (by linarith) (by positivity)
  have hrw : rho * w * ((x - p) / (rho * w)) = x - p := by field_simp
  have hwphi : (w - (x - p) / (rho * w)) * (2 * rho * w) = (g - 1) * x + (g + 1) * p := by
    have : (w - (x - p) / (rho * w)) * (2 * rho * w) = w ^ 2 * (2 * rho) - 2 * (rho * w * ((x - p) / (rho * w))) := by ring
    rw [this, hrw, hw2]; ring
  have hlt : (x - p) / (rho * w) < w := by
    by_contra hc
    have : (w - (x - p) / (rho * w)) * (2 * rho * w) ≤ 0 := mul_nonpos_of_nonpos_of_nonneg (by linarith [not_lt.1 hc]) (by positivity)
    linarith
  have hmass : rho * ((g + 1) * x + (g - 1) * p) / ((g - 1) * x + (g + 1) * p) * (w - (x - p) / (rho * w)) = rho * w := by
    rw [← hw2, ← hwphi]
    have : w - (x - p) / (rho * w) ≠ 0 := by linarith
    generalize w - (x - p) / (rho * w) = w' at *
    field_simp
  refine ⟨by positivity, hphi0, hlt, hmass, hrw, ?_, ?_, ?_⟩
  · -- energy
    generalize hph : (x - p) / (rho * w) = phi at *
    have hphw : phi * w = (x - p) / rho := by rw [← hph]; field_simp
    have e3 : (w - phi) ^ 2 / 2 = w ^ 2 / 2 - phi * w + phi ^ 2 / 2 := by ring
    have e4 : phi ^ 2 * ((g + 1) * x + (g - 1) * p) = 2 * (x - p) ^ 2 / rho := by
      rw [← hw2, ← hph]; field_simp
    rw [e3, hphw]
    have e5 : phi ^ 2 = 2 * (x - p) ^ 2 / rho / ((g + 1) * x + (g - 1) * p) := by rw [← e4]; field_simp
    rw [e5]
    field_simp
    ring
  · -- faster than sound in front
    by_contra hc
    have h1 : w ^ 2 ≤ a ^ 2 := pow_le_pow_left₀ hw0.le (not_lt.1 hc) 2
    have h2 : w ^ 2 * (2 * rho) ≤ a ^ 2 * (2 * rho) := mul_le_mul_of_nonneg_right h1 (by positivity)
    rw [hw2] at h2
    have : a ^ 2 * (2 * rho) = 2 * (g * p) := by rw [← h.sq]; ring
    nlinarith
  · -- slower than sound behind
    have e6 : (w - (x - p) / (rho * w)) ^ 2 * (rho * ((g + 1) * x + (g - 1) * p) / ((g - 1) * x + (g + 1) * p)) = ((g - 1) * x + (g + 1) * p) / 2 := by
      calc (w - (x - p) / (rho * w)) ^ 2 * (rho * ((g + 1) * x + (g - 1) * p) / ((g - 1) * x + (g + 1) * p))
          = (w - (x - p) / (rho * w)) * (rho * ((g + 1) * x + (g - 1) * p) / ((g - 1) * x + (g + 1) * p) * (w - (x - p) / (rho * w))) := by ring
        _ = (w - (x - p) / (rho * w)) * (2 * rho * w) / 2 := by rw [hmass]; ring
        _ = _ := by rw [hwphi]
    rw [e6]
    nlinarith

/-- The rarefaction curve: speed of sound, density and wave function at a lower pressure. -/
theorem rar_scalar {g rho p a x : ℝ} (h : WaveData g rho p a) (hx0 : 0 < x) (hx : x ≤ p) :
    let aM := a * (x / p) ^ ((g - 1) / (2 * g))
    let rho' := rho * (x / p) ^ (1 / g)
    0 < aM ∧ aM ≤ a ∧ 0 < rho' ∧ aM ^ 2 * rho' = g * x ∧ x * rho ^ g = p * rho' ^ g ∧
      gasWave g rho p a x = 2 / (g - 1) * (aM - a) := by
  intro aM rho'
  have hg := h.g1; have hr := h.rho0; have hp := h.p0; have ha := h.a0
  have hg0 : 0 < g := by linarith
  have hgm : 0 < g - 1 := by linarith
  have hr0 : 0 < x / p := div_pos hx0 hp
  have hr1 : x / p ≤ 1 := (div_le_one hp).2 hx
  have q0 := Real.rpow_pos_of_pos hr0 ((g - 1) / (2 * g))
  have q1 := Real.rpow_pos_of_pos hr0 (1 / g)
  refine ⟨mul_pos ha q0, ?_, mul_pos hr q1, ?_, ?_, ?_⟩
  · have := Real.rpow_le_one hr0.le hr1 (show 0 ≤ (g - 1) / (2 * g) by positivity)
    have := mul_le_mul_of_nonneg_left this ha.le
    simpa [aM] using this
  · have e : ((x / p) ^ ((g - 1) / (2 * g))) ^ 2 * (x / p) ^ (1 / g) = x / p := by
      rw [← Real.rpow_natCast, ← Real.rpow_mul hr0.le, ← Real.rpow_add hr0]
      have : (g - 1) / (2 * g) * ((2 : ℕ) : ℝ) + 1 / g = 1 := by push_cast; field_simp; ring
      rw [this, Real.rpow_one]
    calc aM ^ 2 * rho' = (a ^ 2 * rho) * (((x / p) ^ ((g - 1) / (2 * g))) ^ 2 * (x / p) ^ (1 / g)) := by simp only [aM, rho']; ring
      _ = g * x := by rw [e, h.sq]; field_simp
  · simp only [rho']
    rw [Real.mul_rpow hr.le q1.le, ← Real.rpow_mul hr0.le, one_div_mul_cancel hg0.ne', Real.rpow_one]
    field_simp
  · rw [gasWave, if_neg (not_lt.2 hx), show 1 / 2 * (g - 1) / g = (g - 1) / (2 * g) by field_simp]
    simp only [aM]; ring

/-- Inside of a rarefaction: the state with speed of sound `a * b`. -/
theorem fan_scalar {g rho p a b : ℝ} (h : WaveData g rho p a) (hb : 0 < b) :
    let p' := p * b ^ (2 * g / (g - 1))
    let rho' := rho * b ^ (2 / (g - 1))
    0 < p' ∧ 0 < rho' ∧ (a * b) ^ 2 * rho' = g * p' ∧ p' * rho ^ g = p * rho' ^ g := by
  intro p' rho'
  have hg := h.g1; have hr := h.rho0; have hp := h.p0; have ha := h.a0
  have hgm : 0 < g - 1 := by linarith
  have q0 := Real.rpow_pos_of_pos hb (2 * g / (g - 1))
  have q1 := Real.rpow_pos_of_pos hb (2 / (g - 1))
  refine ⟨mul_pos hp q0, mul_pos hr q1, ?_, ?_⟩
  · have e : b ^ 2 * b ^ (2 / (g - 1)) = b ^ (2 * g / (g - 1)) := by
      rw [← Real.rpow_natCast, ← Real.rpow_add hb]
      congr 1; push_cast; field_simp; ring
    calc (a * b) ^ 2 * rho' = (a ^ 2 * rho) * (b ^ 2 * b ^ (2 / (g - 1))) := by simp only [rho']; ring
      _ = g * p' := by rw [e, h.sq]; simp only [p']; ring
  · simp only [rho', p']
    rw [Real.mul_rpow hr.le q1.le, ← Real.rpow_mul hb.le]
    have : 2 / (g - 1) * g = 2 * g / (g - 1) := by ring
    rw [this]; ring

end Fub
