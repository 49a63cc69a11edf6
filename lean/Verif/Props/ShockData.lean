import Verif.Model.ShockData
import Verif.Props.GasExact
import Verif.Props.Gas

/-! Properties of the mass flow boundary at cut cells (C84) and of the shock initial data (C85). -/

namespace Fub
open Finset
variable {d : ℕ}

/-! ### Mass flow boundary at cut cells -/

theorem massflow_cut_aux {gamma u c : ℝ} (hg : 1 < gamma) (hc : 0 < c) (v : ℝ) :
    let K := Real.sqrt (c * c + 1 / 2 * (gamma - 1) * u * u) * Real.sqrt (2 * (1 / (gamma + 1)))
    1 - (gamma - 1) * (1 / (gamma + 1)) * (v / K) * (v / K) = 1 - (gamma - 1) / 2 * v ^ 2 / (c ^ 2 + (gamma - 1) / 2 * u ^ 2) := by
  intro K
  have h1 : 0 < c * c + 1 / 2 * (gamma - 1) * u * u := by
    have : 0 ≤ 1 / 2 * (gamma - 1) * u * u := by rw [mul_assoc]; exact mul_nonneg (by linarith) (mul_self_nonneg u)
    have := mul_pos hc hc
    linarith
  have h2 : 0 < 2 * (1 / (gamma + 1)) := by have : 0 < gamma + 1 := by linarith
                                            positivity
  have hK : K ^ 2 = (c * c + 1 / 2 * (gamma - 1) * u * u) * (2 * (1 / (gamma + 1))) := by simp only [K]; rw [mul_pow, Real.sq_sqrt h1.le, Real.sq_sqrt h2.le]
  have e : (gamma - 1) * (1 / (gamma + 1)) * (v / K) * (v / K) = (gamma - 1) * (1 / (gamma + 1)) * v ^ 2 / K ^ 2 := by rw [mul_assoc, ← sq, div_pow]; ring
  have e3 : c ^ 2 + (gamma - 1) / 2 * u ^ 2 = c * c + 1 / 2 * (gamma - 1) * u * u := by ring
  rw [e, hK, e3]
  have : gamma + 1 ≠ 0 := by linarith
  field_simp

/-- **C84, what holds.** An inner state that has the required mass flow is kept, for every subsonic or supersonic velocity. -/
theorem massflow_cut_partial (gamma rho u c p area : ℝ) (hg : 1 < gamma) (hr : 0 < rho) (hc : 0 < c) (ha : 0 < area) :
    massflowCut gamma rho u c p (area * (rho * u)) area = (u, p) := by
  have hu : area * (rho * u) / rho / area = u := by field_simp
  simp only [massflowCut]
  rw [hu, massflow_cut_aux hg hc u]
  have hX : 0 < 1 - (gamma - 1) / 2 * u ^ 2 / (c ^ 2 + (gamma - 1) / 2 * u ^ 2) := by
    have h0 : 0 ≤ (gamma - 1) / 2 * u ^ 2 := mul_nonneg (by linarith) (sq_nonneg u)
    have h1 : 0 < c ^ 2 := by positivity
    rw [sub_pos, div_lt_one (by linarith)]; linarith
  rw [mul_assoc, ← Real.rpow_add hX, show -gamma / (gamma - 1) + gamma / (gamma - 1) = 0 by ring, Real.rpow_zero, mul_one]

/-- **C84 is false.** Inner and outer velocity are exchanged in the isentropic relation, and the outer velocity is that of the inner density: whenever the required mass flow needs a larger speed, the outer pressure is larger than the inner one,
the total enthalpy of the outer state is larger and so is its mass flow than the required one. -/
theorem massflow_cut_wrong (gamma rho u c p required area : ℝ) (hg : 1 < gamma) (hr : 0 < rho) (hc : 0 < c) (hp : 0 < p) (hcs : c ^ 2 * rho = gamma * p) (ha : 0 < area) (hu : 0 ≤ u) (hreq : area * (rho * u) < required)
    (hmax : (gamma - 1) / 2 * (required / rho / area) ^ 2 < c ^ 2 + (gamma - 1) / 2 * u ^ 2) (rhoN : ℝ) (hrN : 0 < rhoN) :
    let un := (massflowCut gamma rho u c p required area).1
    let pN := (massflowCut gamma rho u c p required area).2
    pN * rho ^ gamma = p * rhoN ^ gamma →
    p < pN ∧ rho < rhoN ∧ required < area * (rhoN * un) ∧ gamma / (gamma - 1) * (p / rho) + u ^ 2 / 2 < gamma / (gamma - 1) * (pN / rhoN) + un ^ 2 / 2 := by
  intro un pN hent
  have hun : un = required / rho / area := rfl
  have g1 : 0 < gamma - 1 := by linarith
  have g0 : 0 < gamma := by linarith
  have huu : u < un := by rw [hun, lt_div_iff₀ ha, lt_div_iff₀ hr]; linarith
  have hN : pN = p * (1 - (gamma - 1) / 2 * un ^ 2 / (c ^ 2 + (gamma - 1) / 2 * u ^ 2)) ^ (-gamma / (gamma - 1)) * (1 - (gamma - 1) / 2 * u ^ 2 / (c ^ 2 + (gamma - 1) / 2 * u ^ 2)) ^ (gamma / (gamma - 1)) := by
    simp only [pN, massflowCut]
    rw [massflow_cut_aux hg hc u, massflow_cut_aux hg hc (required / rho / area), hun]
  rw [← hun] at hmax
  have hW : 0 < c ^ 2 + (gamma - 1) / 2 * u ^ 2 := by have := mul_nonneg (show 0 ≤ (gamma - 1) / 2 by linarith) (sq_nonneg u); have : 0 < c ^ 2 := by positivity
                                                      linarith
  have hX : 0 < 1 - (gamma - 1) / 2 * un ^ 2 / (c ^ 2 + (gamma - 1) / 2 * u ^ 2) := by rw [sub_pos, div_lt_one hW]; exact hmax
  have hsq : u ^ 2 < un ^ 2 := by nlinarith
  have hXY : 1 - (gamma - 1) / 2 * un ^ 2 / (c ^ 2 + (gamma - 1) / 2 * u ^ 2) < 1 - (gamma - 1) / 2 * u ^ 2 / (c ^ 2 + (gamma - 1) / 2 * u ^ 2) := by
    have := div_lt_div_of_pos_right (mul_lt_mul_of_pos_left hsq (show 0 < (gamma - 1) / 2 by linarith)) hW
    linarith
  generalize 1 - (gamma - 1) / 2 * un ^ 2 / (c ^ 2 + (gamma - 1) / 2 * u ^ 2) = X at *
  generalize 1 - (gamma - 1) / 2 * u ^ 2 / (c ^ 2 + (gamma - 1) / 2 * u ^ 2) = Y at *
  have hk : 0 < gamma / (gamma - 1) := by positivity
  have hpN : p < pN := by
    rw [hN, show -gamma / (gamma - 1) = -(gamma / (gamma - 1)) by ring, Real.rpow_neg hX.le, mul_assoc]
    refine lt_mul_of_one_lt_right hp ?_
    have h1 := Real.rpow_lt_rpow hX.le hXY hk
    have h2 := Real.rpow_pos_of_pos hX (gamma / (gamma - 1))
    rw [inv_mul_eq_div, one_lt_div h2]
    exact h1
  have hrr : rho < rhoN := by
    by_contra hn
    have h1 := Real.rpow_le_rpow hrN.le (not_lt.1 hn) g0.le
    have h2 := Real.rpow_pos_of_pos hr gamma
    have h3 := mul_lt_mul_of_pos_right hpN h2
    have h4 := mul_le_mul_of_nonneg_left h1 hp.le
    linarith
  refine ⟨hpN, hrr, ?_, ?_⟩
  · have h1 : 0 < un := lt_of_le_of_lt hu huu
    have h2 := mul_lt_mul_of_pos_left (mul_lt_mul_of_pos_right hrr h1) ha
    have h3 : area * (rho * un) = required := by rw [hun]; field_simp
    linarith
  · have hT : p / rho < pN / rhoN := by
      have hrat : pN / p = (rhoN / rho) ^ gamma := by
        rw [Real.div_rpow hrN.le hr.le, div_eq_div_iff hp.ne' (Real.rpow_pos_of_pos hr gamma).ne']; linarith
      have h1 : rhoN / rho < (rhoN / rho) ^ gamma := Real.self_lt_rpow_of_one_lt ((one_lt_div hr).2 hrr) hg
      rw [← hrat, div_lt_div_iff₀ hr hp] at h1
      rw [div_lt_div_iff₀ hr hrN]; linarith
    have := mul_lt_mul_of_pos_left hT hk
    linarith

/-- The hypotheses are met: half the speed of sound and a required mass flow of twice the one of the inner state. -/
example : ∃ rhoN, 0 < rhoN ∧ (massflowCut 2 2 (1 / 2) 1 1 2 1).2 * 2 ^ (2 : ℝ) = 1 * rhoN ^ (2 : ℝ) ∧ 2 < 1 * (rhoN * (massflowCut 2 2 (1 / 2) 1 1 2 1).1) := by
  have h0 : 0 < (massflowCut 2 2 (1 / 2) 1 1 2 1).2 := by
    simp only [massflowCut]
    have h1 := massflow_cut_aux (gamma := 2) (u := 1 / 2) (c := 1) (by norm_num) (by norm_num) (1 / 2)
    have h2 := massflow_cut_aux (gamma := 2) (u := 1 / 2) (c := 1) (by norm_num) (by norm_num) (2 / 2 / 1)
    simp only at h1 h2
    rw [h1, h2]
    refine mul_pos (mul_pos one_pos (Real.rpow_pos_of_pos (by norm_num) _)) (Real.rpow_pos_of_pos (by norm_num) _)
  have e : (massflowCut 2 2 (1 / 2) 1 1 2 1).2 * 2 ^ (2 : ℝ) = 1 * (2 * Real.sqrt (massflowCut 2 2 (1 / 2) 1 1 2 1).2) ^ (2 : ℝ) := by
    rw [Real.rpow_two, Real.rpow_two, mul_pow, Real.sq_sqrt h0.le]; ring
  have hs := Real.sqrt_pos.2 h0
  exact ⟨_, by positivity, e, (massflow_cut_wrong 2 2 (1 / 2) 1 1 2 1 (by norm_num) (by norm_num) (by norm_num) (by norm_num) (by norm_num) (by norm_num) (by norm_num) (by norm_num) (by norm_num) _ (by positivity) e).2.2.1⟩

/-! ### A shock with given Mach number -/

/-- Specification: the Rankine–Hugoniot conditions for a plane front with unit normal `n` and speed `s`. -/
def RankineHugoniotN (n : Fin d → ℝ) (A B : GasComplete d) (s : ℝ) : Prop :=
  (eulerNormalFlux A n).density - (eulerNormalFlux B n).density = s * (A.density - B.density) ∧
  (∀ i, (eulerNormalFlux A n).momentum i - (eulerNormalFlux B n).momentum i = s * (A.momentum i - B.momentum i)) ∧
  (eulerNormalFlux A n).energy - (eulerNormalFlux B n).energy = s * (A.energy - B.energy)

theorem shock_ratios {g m2 : ℝ} (hg : 1 < g) (hm : 1 < m2) :
    1 < (2 * g * m2 - (g - 1)) / (g + 1) ∧ 1 < (g + 1) * m2 / ((g - 1) * m2 + 2) ∧ ((g - 1) * m2 + 2) / (g + 1) < (2 * g * m2 - (g - 1)) / (g + 1) := by
  have gp : 0 < g + 1 := by linarith
  have hden : 0 < (g - 1) * m2 + 2 := by nlinarith
  have k := mul_pos gp (sub_pos.2 hm)
  refine ⟨by rw [one_lt_div gp]; nlinarith, by rw [one_lt_div hden]; nlinarith, div_lt_div_of_pos_right (by nlinarith) gp⟩

set_option maxHeartbeats 800000 in
/-- **C85.** For every state in front and every shock Mach number for which the pressure behind is positive: the computed state is a state of the gas, and it is connected to the state in front by a discontinuity with speed `M_S a` that fulfils the
Rankine–Hugoniot conditions if and only if the gas in front moves in the direction of the normal (or is at rest). If the shock is faster than sound waves in front, gas is compressed and the conditions of Lax hold. -/
theorem pre_shock_state (eq : GasEq) (h : eq.Valid) (post : GasComplete d) (hq : IsGasState eq post) (MS : ℝ) (n : Fin d → ℝ) (hn : ∑ i, n i ^ 2 = 1)
    (hM : (eq.gamma - 1) / (2 * eq.gamma) < (MS - gasSpeed post / post.speedOfSound) ^ 2) :
    let pre := preShockState eq post MS n
    let s := MS * post.speedOfSound
    IsGasState eq pre ∧ (RankineHugoniotN n pre post s ↔ ∀ i, post.vel i = gasSpeed post * n i) ∧
    (gasSpeed post / post.speedOfSound + 1 < MS →
      post.pressure < pre.pressure ∧ post.density < pre.density ∧ gasSpeed post + post.speedOfSound < s ∧ s < (∑ i, pre.vel i * n i) + pre.speedOfSound) := by
  intro pre s
  have hg := h.one_lt
  have g0 : 0 < eq.gamma := by linarith
  have g1 : 0 < eq.gamma - 1 := by linarith
  have gp : 0 < eq.gamma + 1 := by linarith
  have hr := hq.density_pos
  have hp := hq.pressure_pos
  have hc := hq.sound_pos
  have hcs := hq.sound_sq
  set w := gasSpeed post with hw
  have hwn : w ^ 2 = ∑ i, post.vel i ^ 2 := Real.sq_sqrt (Finset.sum_nonneg fun i _ => sq_nonneg _)
  have hw0 : 0 ≤ w := Real.sqrt_nonneg _
  -- the Mach number of the shock relative to the gas in front
  set m := MS - w / post.speedOfSound with hm
  have hm2 : 0 < m ^ 2 := lt_trans (by positivity) hM
  have hmne : m ≠ 0 := fun h0 => by rw [h0] at hm2; norm_num at hm2
  have hpc : 0 < 2 * eq.gamma * m ^ 2 - (eq.gamma - 1) := by rw [div_lt_iff₀ (by positivity)] at hM; linarith
  have hden : 0 < (eq.gamma - 1) * m ^ 2 + 2 := by positivity
  set rho' := post.density * ((eq.gamma + 1) * m ^ 2 / ((eq.gamma - 1) * m ^ 2 + 2)) with hrho'
  set p' := post.pressure * ((2 * eq.gamma * m ^ 2 - (eq.gamma - 1)) / (eq.gamma + 1)) with hp'
  have hr0 : 0 < rho' := by positivity
  have hp0 : 0 < p' := by positivity
  set t := post.density / rho' with ht
  set u' := s * (1 - t) + w * t with hu'
  have hpre : pre = gasFromPrim eq ⟨rho', fun i => u' * n i, p'⟩ := by
    have e : (w / post.speedOfSound - MS) * (w / post.speedOfSound - MS) = m ^ 2 := by rw [hm]; ring
    simp only [pre, preShockState]
    rw [← hw, e]
  clear_value u' t p' rho' m w
  have hstate : IsGasState eq pre := by rw [hpre]; exact (gas_prim_roundtrip eq h _ hr0 hp0).1
  have fd : pre.density = rho' := by rw [hpre]; rfl
  have fp : pre.pressure = p' := by rw [hpre]; rfl
  have fv : ∀ i, pre.vel i = u' * n i := fun i => by rw [hpre]; simp only [GasComplete.vel, gasFromPrim]; field_simp
  have fmom : ∀ i, pre.momentum i = rho' * (u' * n i) := fun i => by rw [hpre]; rfl
  have hmass : rho' * (u' - s) = post.density * (w - s) := by
    have : rho' * t = post.density := by rw [ht]; field_simp
    rw [hu']; linear_combination (w - s) * this
  have hws : w - s = -(m * post.speedOfSound) := by simp only [s, hm]; field_simp; ring
  have funn : ∑ i, pre.vel i * n i = u' := by
    have e : ∀ i, pre.vel i * n i = u' * n i ^ 2 := fun i => by rw [fv]; ring
    rw [Finset.sum_congr rfl fun i _ => e i, ← Finset.mul_sum, hn, mul_one]
  -- velocity difference and momentum balance in the frame of the shock
  have hdu : u' - w = m * post.speedOfSound * (1 - t) := by rw [hu']; have : s = w + m * post.speedOfSound := by linarith
                                                            rw [this]; ring
  have htv : t * ((eq.gamma + 1) * m ^ 2) = (eq.gamma - 1) * m ^ 2 + 2 := by
    rw [ht, hrho']; field_simp
  have hmom : post.density * (w - s) * (u' - w) = -(p' - post.pressure) := by
    rw [hws, hdu, hp']
    have e1 : post.density * -(m * post.speedOfSound) * (m * post.speedOfSound * (1 - t)) = -(post.speedOfSound ^ 2 * post.density * (m ^ 2 - t * m ^ 2)) := by ring
    have e2 : t * m ^ 2 = ((eq.gamma - 1) * m ^ 2 + 2) / (eq.gamma + 1) := by rw [eq_div_iff gp.ne']; linarith
    rw [e1, hcs, e2]; field_simp; ring
  have hener : eq.gamma / (eq.gamma - 1) * (p' / rho') + (u' - s) ^ 2 / 2 = eq.gamma / (eq.gamma - 1) * (post.pressure / post.density) + (w - s) ^ 2 / 2 := by
    have hus : u' - s = -(m * post.speedOfSound * t) := by linarith
    have hrt : rho' = post.density / t := by rw [ht]; field_simp
    have ht0 : 0 < t := by rw [ht]; positivity
    have e0 : post.pressure / post.density = post.speedOfSound ^ 2 / eq.gamma := by field_simp; linarith
    have e1 : p' / rho' = post.speedOfSound ^ 2 / eq.gamma * ((2 * eq.gamma * m ^ 2 - (eq.gamma - 1)) / (eq.gamma + 1)) * t := by
      rw [← e0, hrt, hp']; field_simp
    rw [e1, hus, hws, e0]
    have e2 : t = ((eq.gamma - 1) * m ^ 2 + 2) / ((eq.gamma + 1) * m ^ 2) := by rw [eq_div_iff (by positivity)]; exact htv
    rw [e2]
    field_simp
    ring
  refine ⟨hstate, ?_, fun hfast => ?_⟩
  · -- the fluxes
    have fA : ∑ i, pre.momentum i / pre.density * n i = u' := by rw [← funn]; rfl
    have mB : ∀ i, post.momentum i = post.density * post.vel i := fun i => by rw [GasComplete.vel]; field_simp
    constructor
    · rintro ⟨r1, -, -⟩
      simp only [eulerNormalFlux] at r1
      rw [fA, fd] at r1
      have hun : ∑ i, post.momentum i / post.density * n i = w := by
        have : post.density * (∑ i, post.momentum i / post.density * n i) = post.density * w := by linarith
        exact mul_left_cancel₀ hr.ne' this
      have hz : ∑ i, (post.vel i - w * n i) ^ 2 = 0 := by
        have e : ∀ i, (post.vel i - w * n i) ^ 2 = post.vel i ^ 2 - 2 * w * (post.momentum i / post.density * n i) + w ^ 2 * n i ^ 2 := fun i => by rw [GasComplete.vel]; ring
        rw [Finset.sum_congr rfl fun i _ => e i, Finset.sum_add_distrib, Finset.sum_sub_distrib, ← Finset.mul_sum, ← Finset.mul_sum, hn, hun, ← hwn]; ring
      intro i
      have := (Finset.sum_eq_zero_iff_of_nonneg fun i _ => sq_nonneg _).1 hz i (mem_univ i)
      have := pow_eq_zero_iff (two_ne_zero) |>.1 this
      linarith
    · intro hpar
      have fB : ∑ i, post.momentum i / post.density * n i = w := by
        have e : ∀ i, post.momentum i / post.density * n i = w * n i ^ 2 := fun i => by
          have := hpar i; rw [GasComplete.vel] at this; rw [this]; ring
        rw [Finset.sum_congr rfl fun i _ => e i, ← Finset.mul_sum, hn, mul_one]
      have eA : pre.energy = p' / (eq.gamma - 1) + rho' / 2 * u' ^ 2 := by
        rw [hstate.energy_eq, fd, fp]
        have : ∑ i, pre.momentum i ^ 2 = (rho' * u') ^ 2 := by
          rw [Finset.sum_congr rfl fun i _ => show pre.momentum i ^ 2 = (rho' * u') ^ 2 * n i ^ 2 by rw [fmom]; ring, ← Finset.mul_sum, hn, mul_one]
        rw [this]; field_simp
      have eB : post.energy = post.pressure / (eq.gamma - 1) + post.density / 2 * w ^ 2 := by
        rw [hq.energy_eq]
        have : ∑ i, post.momentum i ^ 2 = (post.density * w) ^ 2 := by
          rw [Finset.sum_congr rfl fun i _ => show post.momentum i ^ 2 = (post.density * w) ^ 2 * n i ^ 2 by rw [mB, hpar]; ring, ← Finset.mul_sum, hn, mul_one]
        rw [this]; field_simp
      refine ⟨?_, fun i => ?_, ?_⟩
      · simp only [eulerNormalFlux]
        rw [fA, fB, fd]; linear_combination hmass
      · simp only [eulerNormalFlux, fA, fB, fp]
        rw [fmom, mB, hpar]
        linear_combination (u' * n i) * hmass + n i * hmom
      · simp only [eulerNormalFlux, fA, fB, fp]
        rw [eA, eB]
        have eA2 : rho' * (u' - s) * (p' / rho') = p' * (u' - s) := by field_simp
        have eB2 : post.density * (w - s) * (post.pressure / post.density) = post.pressure * (w - s) := by field_simp
        have h4 : eq.gamma / (eq.gamma - 1) * (p' * (u' - s)) + post.density * (w - s) * ((u' - s) ^ 2 / 2) =
            eq.gamma / (eq.gamma - 1) * (post.pressure * (w - s)) + post.density * (w - s) * ((w - s) ^ 2 / 2) := by
          rw [← eA2, ← eB2, hmass]; linear_combination (post.density * (w - s)) * hener
        have hgg : eq.gamma / (eq.gamma - 1) = 1 + 1 / (eq.gamma - 1) := by field_simp; ring
        rw [hgg] at h4
        rw [div_eq_mul_one_div p', div_eq_mul_one_div post.pressure]
        generalize 1 / (eq.gamma - 1) = G at h4
        linear_combination h4 + (u' ^ 2 / 2) * hmass + s * hmom
  · have hm1 : 1 < m := by rw [hm]; linarith
    have hmm : 1 < m ^ 2 := one_lt_pow₀ hm1 two_ne_zero
    obtain ⟨k1, k2, k3⟩ := shock_ratios hg hmm
    refine ⟨by rw [fp, hp']; exact lt_mul_of_one_lt_right hp k1, by rw [fd, hrho']; exact lt_mul_of_one_lt_right hr k2, ?_, ?_⟩
    · have : s = w + m * post.speedOfSound := by linarith
      rw [this]; linarith [lt_mul_of_one_lt_left hc hm1]
    · rw [funn]
      have hus : s - u' = m * post.speedOfSound * t := by
        have : s = w + m * post.speedOfSound := by linarith
        rw [hu', this]; ring
      have ht0 : 0 < t := by rw [ht]; positivity
      have hs0 := hstate.sound_pos
      suffices hlt : m * post.speedOfSound * t < pre.speedOfSound by linarith
      have hsq : (m * post.speedOfSound * t) ^ 2 < pre.speedOfSound ^ 2 := by
        have e := hstate.sound_sq
        rw [fd, fp] at e
        have hrt : rho' = post.density / t := by rw [ht]; field_simp
        have e1 : pre.speedOfSound ^ 2 = eq.gamma * p' * t / post.density := by rw [hrt] at e; field_simp at e ⊢; linarith
        have e2 : (m * post.speedOfSound * t) ^ 2 = eq.gamma * post.pressure * m ^ 2 * t * t / post.density := by
          have : post.speedOfSound ^ 2 = eq.gamma * post.pressure / post.density := by field_simp; linarith
          rw [mul_pow, mul_pow, this]; ring
        rw [e1, e2]
        refine div_lt_div_of_pos_right ?_ hr
        have e3 : m ^ 2 * t = ((eq.gamma - 1) * m ^ 2 + 2) / (eq.gamma + 1) := by rw [eq_div_iff gp.ne']; linarith
        rw [← e3] at k3
        have k4 : eq.gamma * post.pressure * t * (m ^ 2 * t) < eq.gamma * post.pressure * t * ((2 * eq.gamma * m ^ 2 - (eq.gamma - 1)) / (eq.gamma + 1)) := mul_lt_mul_of_pos_left k3 (by positivity)
        calc eq.gamma * post.pressure * m ^ 2 * t * t = eq.gamma * post.pressure * t * (m ^ 2 * t) := by ring
          _ < _ := k4
          _ = _ := by rw [hp']; ring
      exact lt_of_pow_lt_pow_left₀ 2 hs0.le hsq

/-- **C85 (initial data).** Every cell of a regular or a cut patch with positive volume has the inner or the outer state according to the sign of the geometry at its centre; cells without volume and covered patches are filled with zeros. -/
theorem riemann_data (left right : GasComplete d) (alpha phi : ℝ) :
    (∀ kind, kind = .regular ∨ (kind = .mixed ∧ 0 < alpha) → riemannCell left right kind alpha phi = if phi < 0 then left else right) ∧
    (∀ kind, kind = .covered ∨ (kind = .mixed ∧ alpha = 0) → riemannCell left right kind alpha phi = ⟨0, fun _ => 0, 0, 0, 0⟩) := by
  refine ⟨?_, ?_⟩
  · rintro kind (rfl | ⟨rfl, ha⟩)
    · rfl
    · simp only [riemannCell, if_neg ha.ne']
  · rintro kind (rfl | ⟨rfl, ha⟩)
    · rfl
    · simp only [riemannCell, if_pos ha]

/-- The hypotheses are met: a shock with Mach number 2 in a gas at rest, and in a gas that moves against the normal, for which the conditions do not hold. -/
example : RankineHugoniotN (fun _ => 1) (preShockState exampleGas2 (exLeft 0) 2 fun _ => 1) (exLeft 0) (2 * 1) ∧ (exLeft 0).pressure < (preShockState exampleGas2 (exLeft 0) 2 fun _ => 1).pressure := by
  have e : gasSpeed (exLeft 0) = 0 := by simp [gasSpeed, gasVelocity, exLeft]
  obtain ⟨-, h2, h3⟩ := pre_shock_state exampleGas2 exampleGas2_valid (exLeft 0) (exLeft_state 0) 2 (fun _ => 1) (by simp) (by rw [e]; norm_num [exampleGas2, exLeft])
  exact ⟨h2.2 fun i => by rw [e]; simp [GasComplete.vel, exLeft], (h3 (by rw [e]; norm_num [exLeft])).1⟩
example : ¬ RankineHugoniotN (fun _ => 1) (preShockState exampleGas2 (exLeft (-1)) 3 fun _ => 1) (exLeft (-1)) (3 * 1) := by
  have e : gasSpeed (exLeft (-1)) = 1 := by simp [gasSpeed, gasVelocity, exLeft]
  obtain ⟨-, h2, -⟩ := pre_shock_state exampleGas2 exampleGas2_valid (exLeft (-1)) (exLeft_state (-1)) 3 (fun _ => 1) (by simp) (by rw [e]; norm_num [exampleGas2, exLeft])
  intro hR
  have := h2.1 hR 0
  rw [e] at this
  norm_num [GasComplete.vel, exLeft] at this

end Fub
