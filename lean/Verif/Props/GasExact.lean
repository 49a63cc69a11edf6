import Verif.Lemmas.GasExact
import Verif.Lemmas.NewtonConcave
import Verif.Model.GasExact
import Mathlib.Data.Fin.VecNotation

/-! C66: the exact Riemann solver for the perfect gas. -/

namespace Fub
open Set Finset
variable {d : ℕ}

/-! ### The pressure equation -/

theorem gasExactF_eq (g : ℝ) (dir : Fin d) (l r : GasComplete d) (x : ℝ) : gasExactF g dir l r x =
    gasWave g r.density r.pressure r.speedOfSound x + gasWave g l.density l.pressure l.speedOfSound x + (r.vel dir - l.vel dir) := rfl

/-- **C66 (Newton iteration).** `df` is the derivative of `f` at every positive pressure, it is positive and decreasing. -/
theorem gas_newton_derivative (eq : GasEq) (hv : eq.Valid) (dir : Fin d) (l r : GasComplete d) (hl : IsGasState eq l) (hr : IsGasState eq r) :
    (∀ x, 0 < x → HasDerivAt (gasExactF eq.gamma dir l r) (gasExactDF eq.gamma l r x) x ∧ 0 < gasExactDF eq.gamma l r x) ∧
    ∀ x y, 0 < x → x ≤ y → gasExactDF eq.gamma l r y ≤ gasExactDF eq.gamma l r x := by
  refine ⟨fun x hx => ⟨?_, ?_⟩, fun x y hx hxy => ?_⟩
  · exact ((gasWave_deriv (hr.wave hv) hx).add (gasWave_deriv (hl.wave hv) hx)).add_const _
  · exact add_pos (gasWaveD_pos (hr.wave hv) hx) (gasWaveD_pos (hl.wave hv) hx)
  · exact add_le_add (gasWaveD_anti (hr.wave hv) hx hxy) (gasWaveD_anti (hl.wave hv) hx hxy)

theorem gasExactF_strictMono (eq : GasEq) (hv : eq.Valid) (dir : Fin d) (l r : GasComplete d) (hl : IsGasState eq l) (hr : IsGasState eq r) :
    StrictMonoOn (gasExactF eq.gamma dir l r) (Ici 0) := by
  intro x hx y hy hxy
  have h1 := gasWave_strictMono (hr.wave hv) hx hy hxy
  have h2 := gasWave_strictMono (hl.wave hv) hx hy hxy
  simp only [gasExactF]; linarith

theorem gasExactF_tangent (eq : GasEq) (hv : eq.Valid) (dir : Fin d) (l r : GasComplete d) (hl : IsGasState eq l) (hr : IsGasState eq r)
    (x y : ℝ) (hx : 0 < x) (hy : 0 < y) : gasExactF eq.gamma dir l r y ≤ gasExactF eq.gamma dir l r x + gasExactDF eq.gamma l r x * (y - x) := by
  obtain ⟨hd, ha⟩ := gas_newton_derivative eq hv dir l r hl hr
  rcases lt_trichotomy x y with h | rfl | h
  · obtain ⟨c, hc, he⟩ := exists_hasDerivAt_eq_slope (gasExactF eq.gamma dir l r) (gasExactDF eq.gamma l r) h
      (fun z hz => (hd z (hx.trans_le hz.1)).1.continuousAt.continuousWithinAt) (fun z hz => (hd z (hx.trans hz.1)).1)
    rw [eq_div_iff (by linarith)] at he
    have := mul_le_mul_of_nonneg_right (ha x c hx hc.1.le) (sub_pos.2 h).le
    linarith
  · simp
  · obtain ⟨c, hc, he⟩ := exists_hasDerivAt_eq_slope (gasExactF eq.gamma dir l r) (gasExactDF eq.gamma l r) h
      (fun z hz => (hd z (hy.trans_le hz.1)).1.continuousAt.continuousWithinAt) (fun z hz => (hd z (hy.trans hz.1)).1)
    rw [eq_div_iff (by linarith)] at he
    have := mul_le_mul_of_nonneg_right (ha c x (hy.trans hc.1) hc.2.le) (sub_pos.2 h).le
    linarith

/-- **C66 (existence and uniqueness of the middle state).** There is at most one positive pressure at which the two wave curves meet, and there is one if and only if the
states do not separate so fast that a vacuum appears, i.e. `u_R - u_L < 2 (a_L + a_R) / (γ - 1)`. -/
theorem gas_middle_unique (eq : GasEq) (hv : eq.Valid) (dir : Fin d) (l r : GasComplete d) (hl : IsGasState eq l) (hr : IsGasState eq r) :
    (∀ x y, 0 < x → 0 < y → gasExactF eq.gamma dir l r x = 0 → gasExactF eq.gamma dir l r y = 0 → x = y) ∧
    ((∃ x, 0 < x ∧ gasExactF eq.gamma dir l r x = 0) ↔ r.vel dir - l.vel dir < 2 * (l.speedOfSound + r.speedOfSound) / (eq.gamma - 1)) := by
  have hm := gasExactF_strictMono eq hv dir l r hl hr
  have hz : gasExactF eq.gamma dir l r 0 = r.vel dir - l.vel dir - 2 * (l.speedOfSound + r.speedOfSound) / (eq.gamma - 1) := by
    rw [gasExactF_eq, gasWave_zero (hr.wave hv), gasWave_zero (hl.wave hv)]; ring
  refine ⟨fun x y hx hy ex ey => hm.injOn hx.le hy.le (ex.trans ey.symm), ⟨?_, fun hlt => ?_⟩⟩
  · rintro ⟨x, hx, he⟩
    have := hm (show (0 : ℝ) ∈ Set.Ici (0 : ℝ) from Set.mem_Ici.2 le_rfl) hx.le hx
    rw [he, hz] at this
    linarith
  · obtain ⟨b, hb0, hb⟩ := gasWave_large (hr.wave hv) (|r.vel dir - l.vel dir| + 2 * l.speedOfSound / (eq.gamma - 1)) 0
    have hb1 := hb b le_rfl
    have hbF : 0 < gasExactF eq.gamma dir l r b := by
      have := gasWave_lower (hl.wave hv) hb0.le
      have := neg_abs_le (r.vel dir - l.vel dir)
      rw [gasExactF_eq]; linarith
    have hc : ContinuousOn (gasExactF eq.gamma dir l r) (Icc 0 b) := by
      have one : ∀ q : GasComplete d, IsGasState eq q → ContinuousOn (gasWave eq.gamma q.density q.pressure q.speedOfSound) (Icc 0 b) := by
        intro q hq x hx
        rcases hx.1.eq_or_lt with rfl | hx0
        · have hw := hq.wave hv
          have hg := hv.one_lt
          refine ContinuousAt.continuousWithinAt ?_
          have e : gasWave eq.gamma q.density q.pressure q.speedOfSound =ᶠ[nhds 0]
              fun x => 2 * q.speedOfSound / (eq.gamma - 1) * ((x / q.pressure) ^ (1 / 2 * (eq.gamma - 1) / eq.gamma) - 1) := by
            filter_upwards [Iio_mem_nhds hw.p0] with y hy using if_neg (not_lt.2 (le_of_lt hy))
          refine ContinuousAt.congr ?_ e.symm
          have : 0 < 1 / 2 * (eq.gamma - 1) / eq.gamma := div_pos (mul_pos (by norm_num) (by linarith)) (by linarith)
          have h1 : ContinuousAt (fun x : ℝ => (x / q.pressure) ^ (1 / 2 * (eq.gamma - 1) / eq.gamma)) 0 :=
            ContinuousAt.rpow_const (by fun_prop) (Or.inr this.le)
          exact continuousAt_const.mul (h1.sub continuousAt_const)
        · exact (gasWave_deriv (hq.wave hv) hx0).continuousAt.continuousWithinAt
      exact ((one r hr).add (one l hl)).add continuousOn_const
    have hlow : gasExactF eq.gamma dir l r 0 < 0 := by rw [hz]; linarith
    obtain ⟨x, hx, he⟩ := intermediate_value_Icc hb0.le hc ⟨hlow.le, hbF.le⟩
    refine ⟨x, hx.1.lt_of_ne ?_, he⟩
    rintro rfl
    rw [he] at hlow
    exact lt_irrefl _ hlow

/-- **C66 (convergence).** If no vacuum appears, a sufficiently large iteration limit makes the Newton iteration of `ComputeMiddleState` return: a nonnegative pressure at
which the two wave curves differ by at most the tolerance `1e-7`, or the pressure zero (only if an iterate vanishes exactly).
How large the limit has to be depends on the states; the code uses 5000. -/
theorem gas_newton_converges (eq : GasEq) (hv : eq.Valid) (dir : Fin d) (l r : GasComplete d) (hl : IsGasState eq l) (hr : IsGasState eq r)
    (hvac : r.vel dir - l.vel dir < 2 * (l.speedOfSound + r.speedOfSound) / (eq.gamma - 1)) :
    ∃ N : ℤ, ∀ limit, N ≤ limit → ∃ m, gasMiddle eq limit l r dir = some m ∧ 0 ≤ m.1 ∧ (|gasExactF eq.gamma dir l r m.1| ≤ 1 / 10 ^ 7 ∨ m.1 = 0) := by
  obtain ⟨hd, ha⟩ := gas_newton_derivative eq hv dir l r hl hr
  obtain ⟨x, hx, he⟩ := (gas_middle_unique eq hv dir l r hl hr).2.2 hvac
  have hF0 : gasExactF eq.gamma dir l r 0 ≤ 0 := by
    rw [gasExactF_eq, gasWave_zero (hr.wave hv), gasWave_zero (hl.wave hv)]
    have e : 2 * (l.speedOfSound + r.speedOfSound) / (eq.gamma - 1) = 2 * r.speedOfSound / (eq.gamma - 1) + 2 * l.speedOfSound / (eq.gamma - 1) := by ring
    linarith
  have hD0 : gasExactDF eq.gamma l r 0 = 0 := by
    have hg := hv.one_lt
    have : -(1 / 2) * (eq.gamma + 1) / eq.gamma ≠ 0 := by
      have : 0 < (eq.gamma + 1) / eq.gamma := div_pos (by linarith) (by linarith)
      rw [mul_div_assoc]; exact mul_ne_zero (by norm_num) this.ne'
    rw [gasExactDF, gasWaveD, if_neg (not_lt.2 hr.pressure_pos.le), gasWaveD, if_neg (not_lt.2 hl.pressure_pos.le), zero_div, zero_div, Real.zero_rpow this]
    simp
  have hp : 0 < 1 / 2 * (l.pressure + r.pressure) := by have := hl.pressure_pos; have := hr.pressure_pos; linarith
  obtain ⟨N, hN⟩ := newton_concave (fun x hx => (hd x hx).2) hD0 (gasExactF_tangent eq hv dir l r hl hr) ha hx he hF0
    (show (0 : ℝ) < 1 / 10 ^ 7 by norm_num) hp
  refine ⟨N, fun limit hlim => ?_⟩
  obtain ⟨x, e, x0, hx⟩ := hN limit hlim
  exact ⟨(x, _), by simp only [gasMiddle]; rw [e], x0, hx⟩

/-- **C66 (vacuum).** If the states separate so fast that a vacuum appears (by more than the tolerance), the solver throws, for every nonnegative iteration limit. -/
theorem gas_vacuum_throws (eq : GasEq) (hv : eq.Valid) (dir : Fin d) (old l r : GasComplete d) (hl : IsGasState eq l) (hr : IsGasState eq r)
    (hvac : 2 * (l.speedOfSound + r.speedOfSound) / (eq.gamma - 1) + 1 / 10 ^ 7 < r.vel dir - l.vel dir) (limit : Int) (hlim : 0 ≤ limit) :
    gasExactSolve eq limit old l r dir = none ∧ gasExactSignals eq limit l r dir = none := by
  have hp : 0 < 1 / 2 * (l.pressure + r.pressure) := by have := hl.pressure_pos; have := hr.pressure_pos; linarith
  have hpos : ∀ x, 0 ≤ x → 1 / 10 ^ 7 < gasExactF eq.gamma dir l r x := by
    intro x hx
    rw [gasExactF_eq]
    have a1 := gasWave_lower (hl.wave hv) hx
    have a2 := gasWave_lower (hr.wave hv) hx
    have e : 2 * (l.speedOfSound + r.speedOfSound) / (eq.gamma - 1) = 2 * r.speedOfSound / (eq.gamma - 1) + 2 * l.speedOfSound / (eq.gamma - 1) := by ring
    linarith
  have : gasMiddle eq limit l r dir = none := by
    cases hn : newtonIteration (gasExactF eq.gamma dir l r) (gasExactDF eq.gamma l r) (1 / 2 * (l.pressure + r.pressure)) (1 / 10 ^ 7) limit with
    | none => simp only [gasMiddle, hn]
    | some x =>
      have h0 := newton_nonneg _ _ _ _ x limit hp.le hn
      exact absurd ((newton_converged_partial _ _ _ _ limit hlim).1 x hn).1 (not_le.2 (hpos x h0))
  constructor
  · simp only [gasExactSolve, if_pos (And.intro hl.density_pos hr.density_pos), if_pos (And.intro hl.pressure_pos hr.pressure_pos), this]
  · simp only [gasExactSignals, this]; split <;> rfl

/-- **C66 (middle state).** The velocity that `ComputeMiddleState` returns lies between the two wave curves at the returned pressure, at half of their distance: the error of
the velocity is half of the residual of the pressure equation. -/
theorem gas_middle_velocity (eq : GasEq) (limit : Int) (l r : GasComplete d) (dir : Fin d) (m : ℝ × ℝ) (hm : gasMiddle eq limit l r dir = some m) :
    m.2 - (l.vel dir - gasWave eq.gamma l.density l.pressure l.speedOfSound m.1) = gasExactF eq.gamma dir l r m.1 / 2 ∧
    (r.vel dir + gasWave eq.gamma r.density r.pressure r.speedOfSound m.1) - m.2 = gasExactF eq.gamma dir l r m.1 / 2 := by
  simp only [gasMiddle] at hm
  split at hm
  · cases hm
  · obtain rfl := Option.some.inj hm
    simp only [gasExactF, GasComplete.vel]
    constructor <;> ring

/-! ### The waves -/

/-- The state between the contact discontinuity and the wave that belongs to `Q`. -/
noncomputable def gasInner (eq : GasEq) (dir : Fin d) (Q : GasComplete d) (pM uM : ℝ) : GasComplete d :=
  exactState eq dir Q
    (if Q.pressure < pM then Q.density * (pM / Q.pressure + (eq.gamma - 1) / (eq.gamma + 1)) / ((eq.gamma - 1) / (eq.gamma + 1) * (pM / Q.pressure) + 1)
     else Q.density * (pM / Q.pressure) ^ (1 / eq.gamma)) uM pM

theorem gasInner_rho (eq : GasEq) (hv : eq.Valid) (Q : GasComplete d) (hQ : IsGasState eq Q) {pM : ℝ} (hp : 0 < pM) :
    0 < (if Q.pressure < pM then Q.density * (pM / Q.pressure + (eq.gamma - 1) / (eq.gamma + 1)) / ((eq.gamma - 1) / (eq.gamma + 1) * (pM / Q.pressure) + 1)
     else Q.density * (pM / Q.pressure) ^ (1 / eq.gamma)) := by
  split
  · rename_i hc
    obtain ⟨w, phi, rho', -, -, e, h, -⟩ := shock_scalar (hQ.wave hv) hc
    rw [← e]; exact h
  · rename_i hc
    exact (rar_scalar (hQ.wave hv) hp (not_lt.1 hc)).2.2.1

theorem gasInner_valid (eq : GasEq) (hv : eq.Valid) (dir : Fin d) (Q : GasComplete d) (hQ : IsGasState eq Q) {pM : ℝ} (uM : ℝ) (hp : 0 < pM) :
    IsGasState eq (gasInner eq dir Q pM uM) ∧ (∀ i, (gasInner eq dir Q pM uM).vel i = if i = dir then uM else Q.vel i) ∧ (gasInner eq dir Q pM uM).pressure = pM :=
  ⟨exactState_valid eq hv dir Q (gasInner_rho eq hv Q hQ hp) hp, fun i => exactState_vel eq dir Q uM pM (gasInner_rho eq hv Q hQ hp).ne' i, rfl⟩

/-- Shock between `Q` and the inner state. -/
theorem gasInner_shock (eq : GasEq) (hv : eq.Valid) (dir : Fin d) (Q : GasComplete d) (hQ : IsGasState eq Q) {pM uM σ : ℝ} (hσ : σ = 1 ∨ σ = -1)
    (hc : Q.pressure < pM) (hu : uM = Q.vel dir + σ * gasWave eq.gamma Q.density Q.pressure Q.speedOfSound pM) :
    let s := Q.vel dir + σ * (Q.speedOfSound * Real.sqrt (((eq.gamma + 1) * (pM / Q.pressure) + (eq.gamma - 1)) / (2 * eq.gamma)))
    IsGasShock dir σ Q (gasInner eq dir Q pM uM) s ∧ σ * uM < σ * s := by
  intro s
  have hp : 0 < pM := hQ.pressure_pos.trans hc
  have σσ : σ * σ = 1 := by rcases hσ with rfl | rfl <;> norm_num
  obtain ⟨hM, hMv, hMp⟩ := gasInner_valid eq hv dir Q hQ uM hp
  obtain ⟨w, phi, rho', ew, ephi, erho, rho0, phi0, hlt, mass, mom, en, fast, slow⟩ := shock_scalar (hQ.wave hv) hc
  have hMd : (gasInner eq dir Q pM uM).density = rho' := by simp only [gasInner, exactState, if_pos hc]; exact erho.symm
  have hMu : (gasInner eq dir Q pM uM).vel dir = uM := by rw [hMv, if_pos rfl]
  have hs : s = Q.vel dir + σ * w := by simp only [s, ew]
  clear_value s
  have hu' : uM = Q.vel dir + σ * phi := by rw [hu, ephi]
  have d1 : Q.vel dir - s = -(σ * w) := by rw [hs]; ring
  have d2 : uM - s = -(σ * (w - phi)) := by rw [hs, hu']; ring
  refine ⟨⟨rankineHugoniot_of hv hM hQ dir (fun i hi => by rw [hMv, if_neg hi]) ?_ ?_ ?_, ?_, ?_⟩, ?_⟩
  · rw [hMd, hMu, d1, d2]; linear_combination (-σ) * mass
  · rw [hMu, d1, hMp, hu']
    linear_combination (-(Q.density * w * phi)) * σσ - mom
  · rw [hMd, hMu, hMp, d1, d2]
    have e1 : (-(σ * (w - phi))) ^ 2 = (w - phi) ^ 2 := by rw [neg_sq, mul_pow, sq σ, σσ, one_mul]
    have e2 : (-(σ * w)) ^ 2 = w ^ 2 := by rw [neg_sq, mul_pow, sq σ, σσ, one_mul]
    rw [e1, e2, en]
  · rw [hs]
    have e : σ * (Q.vel dir + σ * w) - σ * (Q.vel dir + σ * Q.speedOfSound) = w - Q.speedOfSound := by linear_combination (w - Q.speedOfSound) * σσ
    linarith
  · rw [hs, hMu, hu']
    have e : σ * (Q.vel dir + σ * phi + σ * (gasInner eq dir Q pM uM).speedOfSound) - σ * (Q.vel dir + σ * w) =
        (gasInner eq dir Q pM uM).speedOfSound - (w - phi) := by linear_combination (phi + (gasInner eq dir Q pM uM).speedOfSound - w) * σσ
    rw [hu'] at e
    have h2 : w - phi < (gasInner eq dir Q pM (Q.vel dir + σ * phi)).speedOfSound := by
      rw [← hu']
      have sq := hM.sound_sq
      rw [hMd, hMp] at sq
      rw [← sq] at slow
      have := lt_of_mul_lt_mul_right slow rho0.le
      exact lt_of_pow_lt_pow_left₀ 2 hM.sound_pos.le this
    linarith
  · rw [hs, hu']
    have e : σ * (Q.vel dir + σ * w) - σ * (Q.vel dir + σ * phi) = w - phi := by linear_combination (w - phi) * σσ
    linarith

/-- Rarefaction between `Q` and the inner state. -/
theorem gasInner_rar (eq : GasEq) (hv : eq.Valid) (dir : Fin d) (Q : GasComplete d) (hQ : IsGasState eq Q) {pM uM σ : ℝ} (hσ : σ = 1 ∨ σ = -1)
    (hp : 0 < pM) (hc : pM ≤ Q.pressure) (hu : uM = Q.vel dir + σ * gasWave eq.gamma Q.density Q.pressure Q.speedOfSound pM) :
    IsGasRar eq dir σ Q (gasInner eq dir Q pM uM) ∧
    (gasInner eq dir Q pM uM).speedOfSound = Q.speedOfSound * (pM / Q.pressure) ^ ((eq.gamma - 1) / (2 * eq.gamma)) := by
  have σσ : σ * σ = 1 := by rcases hσ with rfl | rfl <;> norm_num
  obtain ⟨hM, hMv, hMp⟩ := gasInner_valid eq hv dir Q hQ uM hp
  obtain ⟨aM0, aMle, rho0, snd, ent, wave⟩ := rar_scalar (hQ.wave hv) hp hc
  have hMd : (gasInner eq dir Q pM uM).density = Q.density * (pM / Q.pressure) ^ (1 / eq.gamma) := by simp only [gasInner, exactState, if_neg (not_lt.2 hc)]
  have hMa : (gasInner eq dir Q pM uM).speedOfSound = Q.speedOfSound * (pM / Q.pressure) ^ ((eq.gamma - 1) / (2 * eq.gamma)) := by
    have sq := hM.sound_sq
    rw [hMd, hMp, ← snd] at sq
    have := mul_right_cancel₀ rho0.ne' sq
    exact (pow_left_inj₀ hM.sound_pos.le aM0.le two_ne_zero).1 this
  have hMu : (gasInner eq dir Q pM uM).vel dir = uM := by rw [hMv, if_pos rfl]
  have hg := hv.one_lt
  have hinv : 0 < 2 / (eq.gamma - 1) := div_pos two_pos (by linarith)
  refine ⟨⟨⟨?_, fun i hi => by rw [hMv, if_neg hi], ?_⟩, ?_⟩, hMa⟩
  · rw [hMp, hMd]; exact ent
  · rw [hMu, hMa, hu, wave]; ring
  · rw [hMu, hMa, hu, wave]
    generalize Q.speedOfSound * (pM / Q.pressure) ^ ((eq.gamma - 1) / (2 * eq.gamma)) = aM at *
    have e : σ * (Q.vel dir + σ * Q.speedOfSound) - σ * (Q.vel dir + σ * (2 / (eq.gamma - 1) * (aM - Q.speedOfSound)) + σ * aM) =
        (Q.speedOfSound - aM) * (1 + 2 / (eq.gamma - 1)) := by
      linear_combination (Q.speedOfSound - (2 / (eq.gamma - 1) * (aM - Q.speedOfSound)) - aM) * σσ
    have : 0 ≤ (Q.speedOfSound - aM) * (1 + 2 / (eq.gamma - 1)) := mul_nonneg (by linarith) (by linarith)
    linarith

/-- The state inside of the fan. -/
theorem gasFan (eq : GasEq) (hv : eq.Valid) (dir : Fin d) (Q : GasComplete d) (hQ : IsGasState eq Q) {σ lam : ℝ} (hσ : σ = 1 ∨ σ = -1)
    (hb : 0 < 2 / (eq.gamma + 1) - σ * ((eq.gamma - 1) / (eq.gamma + 1) * (Q.vel dir - lam) / Q.speedOfSound)) :
    let b := 2 / (eq.gamma + 1) - σ * ((eq.gamma - 1) / (eq.gamma + 1) * (Q.vel dir - lam) / Q.speedOfSound)
    let q := exactState eq dir Q (Q.density * b ^ (2 / (eq.gamma - 1))) (2 / (eq.gamma + 1) * (-σ * Q.speedOfSound + 1 / 2 * (eq.gamma - 1) * Q.vel dir + lam))
      (Q.pressure * b ^ (2 * eq.gamma / (eq.gamma - 1)))
    IsGasState eq q ∧ SameInvariants eq dir σ Q q ∧ q.vel dir + σ * q.speedOfSound = lam := by
  intro b q
  have σσ : σ * σ = 1 := by rcases hσ with rfl | rfl <;> norm_num
  obtain ⟨p0, rho0, snd, ent⟩ := fan_scalar (hQ.wave hv) hb
  have hg := hv.one_lt
  have hgm : eq.gamma - 1 ≠ 0 := by linarith
  have hgp : eq.gamma + 1 ≠ 0 := by linarith
  have a0 := hQ.sound_pos
  have hq : IsGasState eq q := exactState_valid eq hv dir Q rho0 p0
  have hqv : ∀ i, q.vel i = if i = dir then _ else Q.vel i := fun i => exactState_vel eq dir Q _ _ rho0.ne' i
  have hqa : q.speedOfSound = Q.speedOfSound * b := by
    have sq := hq.sound_sq
    have e1 : q.density = Q.density * b ^ (2 / (eq.gamma - 1)) := rfl
    have e2 : q.pressure = Q.pressure * b ^ (2 * eq.gamma / (eq.gamma - 1)) := rfl
    rw [e1, e2, ← snd] at sq
    have := mul_right_cancel₀ rho0.ne' sq
    exact (pow_left_inj₀ hq.sound_pos.le (mul_pos a0 hb).le two_ne_zero).1 this
  have hab : Q.speedOfSound * b = 2 / (eq.gamma + 1) * Q.speedOfSound - σ * ((eq.gamma - 1) / (eq.gamma + 1) * (Q.vel dir - lam)) := by
    simp only [b]; field_simp
  refine ⟨hq, ⟨ent, fun i hi => by rw [hqv, if_neg hi], ?_⟩, ?_⟩
  · rw [hqv, if_pos rfl, hqa, hab]
    have e : (eq.gamma - 1) / (eq.gamma + 1) = 1 - 2 / (eq.gamma + 1) := by field_simp; ring
    have e2 : 2 / (eq.gamma - 1) * (2 / (eq.gamma + 1)) = 2 / (eq.gamma - 1) - 2 / (eq.gamma + 1) := by field_simp; ring
    have e3 : 2 / (eq.gamma - 1) * ((eq.gamma - 1) / (eq.gamma + 1)) = 2 / (eq.gamma + 1) := by field_simp
    have e4 : 2 / (eq.gamma + 1) * (1 / 2 * (eq.gamma - 1)) = 1 - 2 / (eq.gamma + 1) := by field_simp; ring
    linear_combination (-σ * Q.speedOfSound) * e2 + σ * σ * (Q.vel dir - lam) * e3 + Q.vel dir * e4 + 2 / (eq.gamma + 1) * (Q.vel dir - lam) * σσ
  · rw [hqv, if_pos rfl, hqa, hab]
    have e4 : 2 / (eq.gamma + 1) * (1 / 2 * (eq.gamma - 1)) = 1 - 2 / (eq.gamma + 1) := by field_simp; ring
    have e : (eq.gamma - 1) / (eq.gamma + 1) = 1 - 2 / (eq.gamma + 1) := by field_simp; ring
    rw [e]
    linear_combination Q.vel dir * e4 - (1 - 2 / (eq.gamma + 1)) * (Q.vel dir - lam) * σσ

/-- The basis of the powers in the fan is positive. -/
theorem gasFan_pos (eq : GasEq) (hv : eq.Valid) (dir : Fin d) (Q M : GasComplete d) (hQ : IsGasState eq Q) (hM : IsGasState eq M) {σ lam : ℝ} (hσ : σ = 1 ∨ σ = -1)
    (hi : M.vel dir - σ * (2 / (eq.gamma - 1) * M.speedOfSound) = Q.vel dir - σ * (2 / (eq.gamma - 1) * Q.speedOfSound))
    (hlam : σ * (M.vel dir + σ * M.speedOfSound) ≤ σ * lam) :
    0 < 2 / (eq.gamma + 1) - σ * ((eq.gamma - 1) / (eq.gamma + 1) * (Q.vel dir - lam) / Q.speedOfSound) := by
  have σσ : σ * σ = 1 := by rcases hσ with rfl | rfl <;> norm_num
  have hg := hv.one_lt
  have hgm : 0 < eq.gamma - 1 := by linarith
  have hgp : 0 < eq.gamma + 1 := by linarith
  have a0 := hQ.sound_pos
  have m0 := hM.sound_pos
  have e : 2 / (eq.gamma + 1) - σ * ((eq.gamma - 1) / (eq.gamma + 1) * (Q.vel dir - lam) / Q.speedOfSound) =
      (2 * Q.speedOfSound - (eq.gamma - 1) * (σ * (Q.vel dir - lam))) / ((eq.gamma + 1) * Q.speedOfSound) := by field_simp
  rw [e]
  refine div_pos ?_ (mul_pos hgp a0)
  have h1 : (eq.gamma - 1) * (σ * (Q.vel dir - M.vel dir)) = 2 * (Q.speedOfSound - M.speedOfSound) := by
    have : Q.vel dir - M.vel dir = σ * (2 / (eq.gamma - 1) * (Q.speedOfSound - M.speedOfSound)) := by linear_combination -hi
    rw [this]
    have e5 : (eq.gamma - 1) * (2 / (eq.gamma - 1)) = 2 := by field_simp
    linear_combination ((eq.gamma - 1) * (2 / (eq.gamma - 1)) * (Q.speedOfSound - M.speedOfSound)) * σσ + (Q.speedOfSound - M.speedOfSound) * e5
  have h2 : σ * (M.vel dir + σ * M.speedOfSound) = σ * M.vel dir + M.speedOfSound := by linear_combination M.speedOfSound * σσ
  rw [h2] at hlam
  have h3 : (eq.gamma - 1) * (σ * (M.vel dir - lam)) ≤ (eq.gamma - 1) * (-M.speedOfSound) := mul_le_mul_of_nonneg_left (by linarith) hgm.le
  have h4 : (eq.gamma - 1) * (σ * (Q.vel dir - lam)) = (eq.gamma - 1) * (σ * (Q.vel dir - M.vel dir)) + (eq.gamma - 1) * (σ * (M.vel dir - lam)) := by ring
  have : 0 < (eq.gamma - 1) * M.speedOfSound := mul_pos hgm m0
  rw [h4, h1]; linarith

/-- The value of a wave, from the values in the three or two regions. -/
theorem gasWave_value (eq : GasEq) (hv : eq.Valid) (dir : Fin d) (Q : GasComplete d) (hQ : IsGasState eq Q) {pM uM σ lam : ℝ} (hσ : σ = 1 ∨ σ = -1)
    (hp : 0 < pM) (hu : uM = Q.vel dir + σ * gasWave eq.gamma Q.density Q.pressure Q.speedOfSound pM) (q : GasComplete d)
    (hs : Q.pressure < pM →
      let s := Q.vel dir + σ * (Q.speedOfSound * Real.sqrt (((eq.gamma + 1) * (pM / Q.pressure) + (eq.gamma - 1)) / (2 * eq.gamma)))
      (σ * lam < σ * s → q = gasInner eq dir Q pM uM) ∧ (σ * s < σ * lam → q = Q) ∧ (lam = s → q = Q ∨ q = gasInner eq dir Q pM uM))
    (hr : pM ≤ Q.pressure →
      let b := 2 / (eq.gamma + 1) - σ * ((eq.gamma - 1) / (eq.gamma + 1) * (Q.vel dir - lam) / Q.speedOfSound)
      let tail := uM + σ * (Q.speedOfSound * (pM / Q.pressure) ^ ((eq.gamma - 1) / (2 * eq.gamma)))
      let fan := exactState eq dir Q (Q.density * b ^ (2 / (eq.gamma - 1)))
        (2 / (eq.gamma + 1) * (-σ * Q.speedOfSound + 1 / 2 * (eq.gamma - 1) * Q.vel dir + lam)) (Q.pressure * b ^ (2 * eq.gamma / (eq.gamma - 1)))
      (σ * (Q.vel dir + σ * Q.speedOfSound) < σ * lam → q = Q) ∧
      (σ * lam < σ * tail → q = gasInner eq dir Q pM uM) ∧
      (σ * tail ≤ σ * lam → σ * lam ≤ σ * (Q.vel dir + σ * Q.speedOfSound) →
        q = fan ∨ (lam = tail ∧ q = gasInner eq dir Q pM uM) ∨ (lam = Q.vel dir + σ * Q.speedOfSound ∧ q = Q))) :
    IsGasWaveValue eq dir σ lam Q (gasInner eq dir Q pM uM) q ∧ IsGasState eq q := by
  obtain ⟨hM, hMv, hMp⟩ := gasInner_valid eq hv dir Q hQ uM hp
  have σσ : σ * σ = 1 := by rcases hσ with rfl | rfl <;> norm_num
  have inj : ∀ x y : ℝ, σ * x = σ * y → x = y := by
    intro x y h
    have : σ * (σ * x) = σ * (σ * y) := by rw [h]
    rwa [← mul_assoc, ← mul_assoc, σσ, one_mul, one_mul] at this
  by_cases hc : Q.pressure < pM
  · obtain ⟨k1, k2, k3⟩ := hs hc
    have sh := gasInner_shock eq hv dir Q hQ hσ hc hu
    refine ⟨Or.inl ⟨_, sh.1, k2, k1, k3⟩, ?_⟩
    generalize Q.vel dir + σ * (Q.speedOfSound * Real.sqrt (((eq.gamma + 1) * (pM / Q.pressure) + (eq.gamma - 1)) / (2 * eq.gamma))) = s at *
    rcases lt_trichotomy (σ * lam) (σ * s) with h | h | h
    · rw [k1 h]; exact hM
    · rcases k3 (inj _ _ h) with h | h
      · rw [h]; exact hQ
      · rw [h]; exact hM
    · rw [k2 h]; exact hQ
  · have hc := not_lt.1 hc
    obtain ⟨hrar, hMa⟩ := gasInner_rar eq hv dir Q hQ hσ hp hc hu
    obtain ⟨k1, k2, k3⟩ := hr hc
    have hMu : (gasInner eq dir Q pM uM).vel dir = uM := by rw [hMv, if_pos rfl]
    rw [← hMa] at k2 k3
    have mid : σ * ((gasInner eq dir Q pM uM).vel dir + σ * (gasInner eq dir Q pM uM).speedOfSound) ≤ σ * lam → σ * lam ≤ σ * (Q.vel dir + σ * Q.speedOfSound) →
        IsGasState eq q ∧ SameInvariants eq dir σ Q q ∧ q.vel dir + σ * q.speedOfSound = lam := by
      intro h1 h2
      rcases k3 (by rw [hMu] at h1; exact h1) h2 with h | ⟨h, h'⟩ | ⟨h, h'⟩
      · rw [h]
        exact gasFan eq hv dir Q hQ hσ (gasFan_pos eq hv dir Q _ hQ hM hσ hrar.1.2.2 h1)
      · rw [h']; exact ⟨hM, hrar.1, by rw [hMu]; exact h.symm⟩
      · rw [h']; exact ⟨hQ, ⟨rfl, fun _ _ => rfl, rfl⟩, h.symm⟩
    refine ⟨Or.inr ⟨hrar, k1, fun h => k2 (by rw [hMu] at h; exact h), mid⟩, ?_⟩
    rcases lt_or_ge (σ * lam) (σ * ((gasInner eq dir Q pM uM).vel dir + σ * (gasInner eq dir Q pM uM).speedOfSound)) with h | h
    · rw [k2 (by rw [hMu] at h; exact h)]; exact hM
    · rcases lt_or_ge (σ * (Q.vel dir + σ * Q.speedOfSound)) (σ * lam) with h' | h'
      · rw [k1 h']; exact hQ
      · exact (mid h h').1

/-- **C66 (exact solution).** Let `pM` be a positive pressure at which the two wave curves meet and `uM` the velocity there. Then there are two gas states `ML`, `MR` with this pressure and
velocity, separated by a contact discontinuity; `left` is connected to `ML` by an entropic shock or a rarefaction of the first family, `MR` to `right` by one of the
last family; and for every ray `x = lam * t` the solver returns, without failing an assertion, a gas state that is the value of this solution on the ray. -/
theorem gas_exact_solution (eq : GasEq) (hv : eq.Valid) (dir : Fin d) (left right : GasComplete d) (hl : IsGasState eq left) (hr : IsGasState eq right) (pM uM : ℝ) (hp : 0 < pM)
    (hL : uM = left.vel dir - gasWave eq.gamma left.density left.pressure left.speedOfSound pM)
    (hR : uM = right.vel dir + gasWave eq.gamma right.density right.pressure right.speedOfSound pM) :
    ∃ ML MR : GasComplete d, IsGasState eq ML ∧ IsGasState eq MR ∧ ML.pressure = pM ∧ ML.vel dir = uM ∧ IsGasContact dir ML MR ∧
      ((∃ s, IsGasShock dir (-1) left ML s) ∨ IsGasRar eq dir (-1) left ML) ∧ ((∃ s, IsGasShock dir 1 right MR s) ∨ IsGasRar eq dir 1 right MR) ∧
      ∀ (old : GasComplete d) (lam : ℝ), ∃ q, gasExactSample eq pM uM old left right lam dir = some q ∧ IsGasState eq q ∧
        (lam ≤ uM → IsGasWaveValue eq dir (-1) lam left ML q) ∧ (uM < lam → IsGasWaveValue eq dir 1 lam right MR q) := by
  have hL' : uM = left.vel dir + (-1) * gasWave eq.gamma left.density left.pressure left.speedOfSound pM := by rw [hL]; ring
  have hR' : uM = right.vel dir + 1 * gasWave eq.gamma right.density right.pressure right.speedOfSound pM := by rw [hR]; ring
  obtain ⟨vL, vLv, vLp⟩ := gasInner_valid eq hv dir left hl uM hp
  obtain ⟨vR, vRv, vRp⟩ := gasInner_valid eq hv dir right hr uM hp
  have uL : (gasInner eq dir left pM uM).vel dir = uM := by rw [vLv, if_pos rfl]
  have uR : (gasInner eq dir right pM uM).vel dir = uM := by rw [vRv, if_pos rfl]
  refine ⟨gasInner eq dir left pM uM, gasInner eq dir right pM uM, vL, vR, vLp, uL, ⟨vLp.trans vRp.symm, uL.trans uR.symm, ?_⟩, ?_, ?_, fun old lam => ?_⟩
  · obtain ⟨fa1, fa2, fa3⟩ := euler_unit (gasInner eq dir left pM uM) vL.density_pos.ne' dir
    obtain ⟨fb1, fb2, fb3⟩ := euler_unit (gasInner eq dir right pM uM) vR.density_pos.ne' dir
    refine ⟨?_, fun i => ?_, ?_⟩
    · rw [fa1, fb1, uL, uR]; ring
    · rw [fa2, fb2, uL, uR, vLp, vRp]
      have mA : (gasInner eq dir left pM uM).momentum i = (gasInner eq dir left pM uM).density * (gasInner eq dir left pM uM).vel i := by
        rw [GasComplete.vel]; have := vL.density_pos.ne'; field_simp
      have mB : (gasInner eq dir right pM uM).momentum i = (gasInner eq dir right pM uM).density * (gasInner eq dir right pM uM).vel i := by
        rw [GasComplete.vel]; have := vR.density_pos.ne'; field_simp
      rw [mA, mB]; ring
    · rw [fa3, fb3, uL, uR, vLp, vRp]; ring
  · rcases lt_or_ge left.pressure pM with hc | hc
    · exact Or.inl ⟨_, (gasInner_shock eq hv dir left hl (Or.inr rfl) hc hL').1⟩
    · exact Or.inr (gasInner_rar eq hv dir left hl (Or.inr rfl) hp hc hL').1
  · rcases lt_or_ge right.pressure pM with hc | hc
    · exact Or.inl ⟨_, (gasInner_shock eq hv dir right hr (Or.inl rfl) hc hR').1⟩
    · exact Or.inr (gasInner_rar eq hv dir right hr (Or.inl rfl) hp hc hR').1
  · have hd : 0 < left.density ∧ 0 < right.density := ⟨hl.density_pos, hr.density_pos⟩
    have hpp : 0 < left.pressure ∧ 0 < right.pressure ∧ 0 < pM := ⟨hl.pressure_pos, hr.pressure_pos, hp⟩
    rcases le_or_gt lam uM with hlam | hlam
    · -- left side
      obtain ⟨q, hq⟩ : ∃ q, gasExactSample eq pM uM old left right lam dir = some q := by
        simp only [gasExactSample, if_pos hd, if_pos hpp, if_pos hlam]
        split <;> split
        · exact ⟨_, rfl⟩
        · exact ⟨_, rfl⟩
        · exact ⟨_, rfl⟩
        · split <;> exact ⟨_, rfl⟩
      have key := gasWave_value (lam := lam) eq hv dir left hl (Or.inr rfl) hp hL' q ?_ ?_
      · exact ⟨q, hq, key.2, fun _ => key.1, fun h => absurd hlam (not_le.2 h)⟩
      · intro hc
        simp only [gasExactSample, if_pos hd, if_pos hpp, if_pos hlam, if_pos hc] at hq
        have es : left.vel dir + -1 * (left.speedOfSound * Real.sqrt (((eq.gamma + 1) * (pM / left.pressure) + (eq.gamma - 1)) / (2 * eq.gamma))) =
            left.momentum dir / left.density - left.speedOfSound * Real.sqrt (((eq.gamma + 1) * (pM / left.pressure) + (eq.gamma - 1)) / (2 * eq.gamma)) := by
          rw [GasComplete.vel]; ring
        simp only [es]
        generalize left.momentum dir / left.density - left.speedOfSound * Real.sqrt (((eq.gamma + 1) * (pM / left.pressure) + (eq.gamma - 1)) / (2 * eq.gamma)) = s at *
        have ei : exactState eq dir left (left.density * (pM / left.pressure + (eq.gamma - 1) / (eq.gamma + 1)) / ((eq.gamma - 1) / (eq.gamma + 1) * (pM / left.pressure) + 1)) uM pM =
            gasInner eq dir left pM uM := by rw [gasInner, if_pos hc]
        rw [ei] at hq
        refine ⟨fun h => ?_, fun h => ?_, fun h => ?_⟩
        · rw [if_pos (by linarith)] at hq; exact (Option.some.inj hq).symm
        · rw [if_neg (by linarith)] at hq; exact (Option.some.inj hq).symm
        · rw [if_neg (by linarith)] at hq; exact Or.inl (Option.some.inj hq).symm
      · intro hc
        simp only [gasExactSample, if_pos hd, if_pos hpp, if_pos hlam, if_neg (not_lt.2 hc)] at hq
        have ei : exactState eq dir left (left.density * (pM / left.pressure) ^ (1 / eq.gamma)) uM pM = gasInner eq dir left pM uM := by
          rw [gasInner, if_neg (not_lt.2 hc)]
        rw [ei] at hq
        have e1 : left.momentum dir / left.density = left.vel dir := rfl
        simp only [e1] at hq
        have e2 : 2 / (eq.gamma + 1) - -1 * ((eq.gamma - 1) / (eq.gamma + 1) * (left.vel dir - lam) / left.speedOfSound) =
            2 / (eq.gamma + 1) + (eq.gamma - 1) / (eq.gamma + 1) * (left.vel dir - lam) / left.speedOfSound := by ring
        have e3 : 2 / (eq.gamma + 1) * (- -1 * left.speedOfSound + 1 / 2 * (eq.gamma - 1) * left.vel dir + lam) =
            2 / (eq.gamma + 1) * (left.speedOfSound + 1 / 2 * (eq.gamma - 1) * left.vel dir + lam) := by ring
        simp only [e2, e3]
        have tailhead : left.vel dir - left.speedOfSound ≤ uM - left.speedOfSound * (pM / left.pressure) ^ ((eq.gamma - 1) / (2 * eq.gamma)) := by
          have h := (gasInner_rar eq hv dir left hl (Or.inr rfl) hp hc hL')
          have h1 := h.1.2
          rw [h.2, uL] at h1
          linarith
        generalize left.speedOfSound * (pM / left.pressure) ^ ((eq.gamma - 1) / (2 * eq.gamma)) = aM at *
        refine ⟨fun h => ?_, fun h => ?_, fun h h' => ?_⟩
        · rw [if_pos (by linarith)] at hq; exact (Option.some.inj hq).symm
        · rw [if_neg (by linarith), if_pos (by linarith)] at hq; exact (Option.some.inj hq).symm
        · rw [if_neg (by linarith), if_neg (by linarith)] at hq; exact Or.inl (Option.some.inj hq).symm
    · -- right side
      have hlam' : ¬ lam ≤ uM := not_le.2 hlam
      obtain ⟨q, hq⟩ : ∃ q, gasExactSample eq pM uM old left right lam dir = some q := by
        simp only [gasExactSample, if_pos hd, if_pos hpp, if_neg hlam']
        split <;> split
        · exact ⟨_, rfl⟩
        · exact ⟨_, rfl⟩
        · exact ⟨_, rfl⟩
        · split <;> exact ⟨_, rfl⟩
      have key := gasWave_value (lam := lam) eq hv dir right hr (Or.inl rfl) hp hR' q ?_ ?_
      · exact ⟨q, hq, key.2, fun h => absurd h hlam', fun _ => key.1⟩
      · intro hc
        simp only [gasExactSample, if_pos hd, if_pos hpp, if_neg hlam', if_pos hc] at hq
        have e1 : right.momentum dir / right.density = right.vel dir := rfl
        have ei : exactState eq dir right (right.density * (pM / right.pressure + (eq.gamma - 1) / (eq.gamma + 1)) / ((eq.gamma - 1) / (eq.gamma + 1) * (pM / right.pressure) + 1)) uM pM =
            gasInner eq dir right pM uM := by rw [gasInner, if_pos hc]
        rw [ei, e1] at hq
        simp only [one_mul]
        generalize right.vel dir + right.speedOfSound * Real.sqrt (((eq.gamma + 1) * (pM / right.pressure) + (eq.gamma - 1)) / (2 * eq.gamma)) = s at *
        refine ⟨fun h => ?_, fun h => ?_, fun h => ?_⟩
        · rw [if_pos h] at hq; exact (Option.some.inj hq).symm
        · rw [if_neg (not_lt.2 h.le)] at hq; exact (Option.some.inj hq).symm
        · rw [if_neg (not_lt.2 h.ge)] at hq; exact Or.inl (Option.some.inj hq).symm
      · intro hc
        simp only [gasExactSample, if_pos hd, if_pos hpp, if_neg hlam', if_neg (not_lt.2 hc)] at hq
        have ei : exactState eq dir right (right.density * (pM / right.pressure) ^ (1 / eq.gamma)) uM pM = gasInner eq dir right pM uM := by
          rw [gasInner, if_neg (not_lt.2 hc)]
        have e1 : right.momentum dir / right.density = right.vel dir := rfl
        rw [ei] at hq
        simp only [e1] at hq
        have e3 : 2 / (eq.gamma + 1) * (-1 * right.speedOfSound + 1 / 2 * (eq.gamma - 1) * right.vel dir + lam) =
            2 / (eq.gamma + 1) * (-right.speedOfSound + 1 / 2 * (eq.gamma - 1) * right.vel dir + lam) := by ring
        simp only [one_mul, e3]
        have tailhead : uM + right.speedOfSound * (pM / right.pressure) ^ ((eq.gamma - 1) / (2 * eq.gamma)) ≤ right.vel dir + right.speedOfSound := by
          have h := (gasInner_rar eq hv dir right hr (Or.inl rfl) hp hc hR')
          have h1 := h.1.2
          rw [h.2, uR] at h1
          linarith
        generalize right.speedOfSound * (pM / right.pressure) ^ ((eq.gamma - 1) / (2 * eq.gamma)) = aM at *
        refine ⟨fun h => ?_, fun h => ?_, fun h h' => ?_⟩
        · rw [if_pos h.le] at hq; exact (Option.some.inj hq).symm
        · rw [if_neg (by linarith), if_pos h.le] at hq; exact (Option.some.inj hq).symm
        · by_cases h1 : right.vel dir + right.speedOfSound ≤ lam
          · rw [if_pos h1] at hq; exact Or.inr (Or.inr ⟨le_antisymm h' h1, (Option.some.inj hq).symm⟩)
          · rw [if_neg h1] at hq
            by_cases h2 : lam ≤ uM + aM
            · rw [if_pos h2] at hq; exact Or.inr (Or.inl ⟨le_antisymm h2 h, (Option.some.inj hq).symm⟩)
            · rw [if_neg h2] at hq; exact Or.inl (Option.some.inj hq).symm

/-- **C66 (error of the middle pressure).** A pressure that satisfies the pressure equation up to a residual differs from the exact one by at most the residual, divided by the slope of
the pressure equation at the larger of the two pressures. -/
theorem gas_middle_error (eq : GasEq) (hv : eq.Valid) (dir : Fin d) (l r : GasComplete d) (hl : IsGasState eq l) (hr : IsGasState eq r)
    (x y : ℝ) (hx : 0 < x) (hy : 0 < y) (he : gasExactF eq.gamma dir l r y = 0) :
    |x - y| * gasExactDF eq.gamma l r (max x y) ≤ |gasExactF eq.gamma dir l r x| := by
  have ht := gasExactF_tangent eq hv dir l r hl hr
  obtain ⟨hd, ha⟩ := gas_newton_derivative eq hv dir l r hl hr
  rcases le_total x y with h | h
  · rw [max_eq_right h]
    have := ht y x hy hx
    rw [he, zero_add] at this
    rw [abs_of_nonpos (sub_nonpos.2 h)]
    have h2 := neg_le_abs (gasExactF eq.gamma dir l r x)
    linarith
  · rw [max_eq_left h]
    have := ht x y hx hy
    rw [he] at this
    rw [abs_of_nonneg (sub_nonneg.2 h)]
    have h2 := le_abs_self (gasExactF eq.gamma dir l r x)
    linarith

/-- **C66 (consistency).** Between two equal states the solver returns this state, for every gas state, direction and iteration limit. -/
theorem gas_exact_consistent (eq : GasEq) (hv : eq.Valid) (dir : Fin d) (old q : GasComplete d) (hq : IsGasState eq q) (limit : Int) :
    gasMiddle eq limit q q dir = some (q.pressure, q.vel dir) ∧ gasExactSolve eq limit old q q dir = some q ∧
    gasExactSignals eq limit q q dir = some (q.vel dir - q.speedOfSound, q.vel dir + q.speedOfSound) := by
  have hp := hq.pressure_pos
  have ha := hq.sound_pos
  have one : q.pressure / q.pressure = 1 := div_self hp.ne'
  have hw : gasWave eq.gamma q.density q.pressure q.speedOfSound q.pressure = 0 := by
    rw [gasWave, if_neg (lt_irrefl _), one, Real.one_rpow]; ring
  have hstart : 1 / 2 * (q.pressure + q.pressure) = q.pressure := by ring
  have hF : gasExactF eq.gamma dir q q q.pressure = 0 := by rw [gasExactF_eq, hw]; ring
  have hmid : gasMiddle eq limit q q dir = some (q.pressure, q.vel dir) := by
    have hn := newton_fixed (gasExactF eq.gamma dir q q) (gasExactDF eq.gamma q q) q.pressure (1 / 10 ^ 7) limit (by norm_num) hF
    simp only [gasMiddle, hstart, hn, hw]
    congr 2
    rw [GasComplete.vel]; ring
  refine ⟨hmid, ?_, ?_⟩
  · have hd : 0 < q.density ∧ 0 < q.density := ⟨hq.density_pos, hq.density_pos⟩
    have hpp : 0 < q.pressure ∧ 0 < q.pressure := ⟨hp, hp⟩
    have hs : gasExactSolve eq limit old q q dir = gasExactSample eq q.pressure (q.vel dir) old q q 0 dir := by
      simp only [gasExactSolve, if_pos hd, if_pos hpp, hmid]
    rw [hs]
    have hb : q.vel dir = q.vel dir + 0 := by ring
    have hg := hv.one_lt
    -- the inner state is `q`
    have hin : gasInner eq dir q q.pressure (q.vel dir) = q := by
      obtain ⟨v, vv, vp⟩ := gasInner_valid eq hv dir q hq (q.vel dir) hp
      refine gasState_ext v hq ?_ ?_ vp
      · simp only [gasInner, exactState, if_neg (lt_irrefl _), one, Real.one_rpow, mul_one]
      · intro i
        rw [vv]; split
        · rename_i h; rw [h]
        · rfl
    have hin' : exactState eq dir q (q.density * 1) (q.vel dir) q.pressure = q := by
      have h := hin
      simp only [gasInner, if_neg (lt_irrefl _), one, Real.one_rpow] at h
      exact h
    have e1 : q.momentum dir / q.density = q.vel dir := rfl
    have fan : ∀ σ : ℝ, (σ = 1 ∨ σ = -1) → q.vel dir + σ * q.speedOfSound = 0 →
        exactState eq dir q (q.density * (2 / (eq.gamma + 1) - σ * ((eq.gamma - 1) / (eq.gamma + 1) * (q.vel dir - 0) / q.speedOfSound)) ^ (2 / (eq.gamma - 1)))
          (2 / (eq.gamma + 1) * (-σ * q.speedOfSound + 1 / 2 * (eq.gamma - 1) * q.vel dir + 0))
          (q.pressure * (2 / (eq.gamma + 1) - σ * ((eq.gamma - 1) / (eq.gamma + 1) * (q.vel dir - 0) / q.speedOfSound)) ^ (2 * eq.gamma / (eq.gamma - 1))) = q := by
      intro σ hσ h0
      have σσ : σ * σ = 1 := by rcases hσ with rfl | rfl <;> norm_num
      have hu : q.vel dir = -(σ * q.speedOfSound) := by linarith
      have hgp : eq.gamma + 1 ≠ 0 := by linarith
      have eb : 2 / (eq.gamma + 1) - σ * ((eq.gamma - 1) / (eq.gamma + 1) * (q.vel dir - 0) / q.speedOfSound) = 1 := by
        rw [hu]
        have : σ * ((eq.gamma - 1) / (eq.gamma + 1) * (-(σ * q.speedOfSound) - 0) / q.speedOfSound) = -((σ * σ) * ((eq.gamma - 1) / (eq.gamma + 1))) := by
          field_simp; ring
        rw [this, σσ]; field_simp; ring
      have eu : 2 / (eq.gamma + 1) * (-σ * q.speedOfSound + 1 / 2 * (eq.gamma - 1) * q.vel dir + 0) = q.vel dir := by
        rw [hu]; field_simp; ring
      rw [eb, eu, Real.one_rpow, Real.one_rpow, mul_one q.pressure]
      exact hin'
    have hpp3 : 0 < q.pressure ∧ 0 < q.pressure ∧ 0 < q.pressure := ⟨hp, hp, hp⟩
    simp only [gasExactSample, if_pos hd, if_pos hpp3, if_neg (lt_irrefl q.pressure), e1, one, Real.one_rpow, mul_one q.speedOfSound]
    split
    · split
      · rfl
      · split
        · rw [hin']
        · rename_i h1 h2
          have h0 : q.vel dir + -1 * q.speedOfSound = 0 := by have := not_lt.1 h1; have := not_lt.1 h2; linarith
          have := fan (-1) (Or.inr rfl) h0
          simp only [neg_one_mul, neg_neg, sub_neg_eq_add, one_mul] at this
          rw [this]
    · split
      · rfl
      · split
        · rw [hin']
        · rename_i h1 h2
          linarith [not_le.1 h1, not_le.1 h2]
  · have hc : 0 < q.density ∧ 0 < q.pressure ∧ 0 < q.density ∧ 0 < q.pressure := ⟨hq.density_pos, hp, hq.density_pos, hp⟩
    simp only [gasExactSignals, if_pos hc, hmid, if_pos hp, if_neg (lt_irrefl q.pressure)]
    rfl

/-- **C66 (signals).** If the pressure equation is solved exactly, the two signals of `ComputeSignals` enclose the velocity of the contact, the solution left of the slower signal is the
left state and right of the faster one the right state. -/
theorem gas_exact_signals (eq : GasEq) (hv : eq.Valid) (dir : Fin d) (left right : GasComplete d) (hl : IsGasState eq left) (hr : IsGasState eq right) (limit : Int) (pM uM : ℝ)
    (hm : gasMiddle eq limit left right dir = some (pM, uM)) (hp : 0 < pM) (h0 : gasExactF eq.gamma dir left right pM = 0) :
    ∃ s, gasExactSignals eq limit left right dir = some s ∧ s.1 < uM ∧ uM < s.2 ∧
      ∀ (old : GasComplete d) (lam : ℝ), (lam < s.1 → gasExactSample eq pM uM old left right lam dir = some left) ∧
        (s.2 < lam → gasExactSample eq pM uM old left right lam dir = some right) := by
  obtain ⟨v1, v2⟩ := gas_middle_velocity eq limit left right dir _ hm
  rw [h0] at v1 v2
  have hL' : uM = left.vel dir + (-1) * gasWave eq.gamma left.density left.pressure left.speedOfSound pM := by simp only at v1; linarith
  have hR' : uM = right.vel dir + 1 * gasWave eq.gamma right.density right.pressure right.speedOfSound pM := by simp only at v2; linarith
  have hc : 0 < left.density ∧ 0 < left.pressure ∧ 0 < right.density ∧ 0 < right.pressure := ⟨hl.density_pos, hl.pressure_pos, hr.density_pos, hr.pressure_pos⟩
  have hd : 0 < left.density ∧ 0 < right.density := ⟨hl.density_pos, hr.density_pos⟩
  have hpp : 0 < left.pressure ∧ 0 < right.pressure ∧ 0 < pM := ⟨hl.pressure_pos, hr.pressure_pos, hp⟩
  have hs : gasExactSignals eq limit left right dir = some
          (if left.pressure < pM then left.vel dir - left.speedOfSound * Real.sqrt (((eq.gamma + 1) * (pM / left.pressure) + (eq.gamma - 1)) / (2 * eq.gamma))
            else left.vel dir - left.speedOfSound,
           if right.pressure < pM then right.vel dir + right.speedOfSound * Real.sqrt (((eq.gamma + 1) * (pM / right.pressure) + (eq.gamma - 1)) / (2 * eq.gamma))
            else right.vel dir + right.speedOfSound) := by
    simp only [gasExactSignals, if_pos hc, hm, if_pos hp]; rfl
  have b1 : (if left.pressure < pM then left.vel dir - left.speedOfSound * Real.sqrt (((eq.gamma + 1) * (pM / left.pressure) + (eq.gamma - 1)) / (2 * eq.gamma))
            else left.vel dir - left.speedOfSound) < uM := by
    split
    · rename_i hc
      have := (gasInner_shock eq hv dir left hl (Or.inr rfl) hc hL').2
      linarith
    · rename_i hc
      have h := gasInner_rar eq hv dir left hl (Or.inr rfl) hp (not_lt.1 hc) hL'
      obtain ⟨v, vv, -⟩ := gasInner_valid eq hv dir left hl uM hp
      have h1 := h.1.2
      rw [vv, if_pos rfl] at h1
      have := v.sound_pos
      linarith
  have b2 : uM < (if right.pressure < pM then right.vel dir + right.speedOfSound * Real.sqrt (((eq.gamma + 1) * (pM / right.pressure) + (eq.gamma - 1)) / (2 * eq.gamma))
            else right.vel dir + right.speedOfSound) := by
    split
    · rename_i hc
      have := (gasInner_shock eq hv dir right hr (Or.inl rfl) hc hR').2
      linarith
    · rename_i hc
      have h := gasInner_rar eq hv dir right hr (Or.inl rfl) hp (not_lt.1 hc) hR'
      obtain ⟨v, vv, -⟩ := gasInner_valid eq hv dir right hr uM hp
      have h1 := h.1.2
      rw [vv, if_pos rfl] at h1
      have := v.sound_pos
      linarith
  refine ⟨_, hs, b1, b2, fun old lam => ⟨fun h => ?_, fun h => ?_⟩⟩
  · have hlam : lam ≤ uM := (h.trans b1).le
    simp only [gasExactSample, if_pos hd, if_pos hpp, if_pos hlam]
    by_cases hc : left.pressure < pM
    · simp only [if_pos hc] at h ⊢
      exact if_neg (not_lt.2 h.le)
    · simp only [if_neg hc] at h ⊢
      exact if_pos h
  · have hlam : ¬ lam ≤ uM := not_le.2 (b2.trans h)
    simp only [gasExactSample, if_pos hd, if_pos hpp, if_neg hlam]
    by_cases hc : right.pressure < pM
    · simp only [if_pos hc] at h ⊢
      exact if_neg (not_lt.2 h.le)
    · simp only [if_neg hc] at h ⊢
      exact if_pos h.le

/-- **C66 (solver).** If the middle state is exact, the state that `SolveRiemannProblem` returns is the value on the ray `x = 0` of the solution that `gas_exact_solution` describes; its
flux is what a Godunov scheme uses. -/
theorem gas_exact_solver (eq : GasEq) (hv : eq.Valid) (dir : Fin d) (old left right : GasComplete d) (hl : IsGasState eq left) (hr : IsGasState eq right) (limit : Int) (pM uM : ℝ)
    (hm : gasMiddle eq limit left right dir = some (pM, uM)) (hp : 0 < pM) (h0 : gasExactF eq.gamma dir left right pM = 0) :
    ∃ ML MR q : GasComplete d, IsGasState eq ML ∧ IsGasState eq MR ∧ ML.pressure = pM ∧ ML.vel dir = uM ∧ IsGasContact dir ML MR ∧
      ((∃ s, IsGasShock dir (-1) left ML s) ∨ IsGasRar eq dir (-1) left ML) ∧ ((∃ s, IsGasShock dir 1 right MR s) ∨ IsGasRar eq dir 1 right MR) ∧
      gasExactSolve eq limit old left right dir = some q ∧ IsGasState eq q ∧
      (0 ≤ uM → IsGasWaveValue eq dir (-1) 0 left ML q) ∧ (uM < 0 → IsGasWaveValue eq dir 1 0 right MR q) := by
  obtain ⟨v1, v2⟩ := gas_middle_velocity eq limit left right dir _ hm
  rw [h0] at v1 v2
  obtain ⟨ML, MR, h1, h2, h3, h4, h5, h6, h7, h8⟩ := gas_exact_solution eq hv dir left right hl hr pM uM hp (by simp only at v1; linarith) (by simp only at v2; linarith)
  obtain ⟨q, hq, hv', a, b⟩ := h8 old 0
  refine ⟨ML, MR, q, h1, h2, h3, h4, h5, h6, h7, ?_, hv', a, b⟩
  simp only [gasExactSolve, if_pos (And.intro hl.density_pos hr.density_pos), if_pos (And.intro hl.pressure_pos hr.pressure_pos), hm]
  exact hq

/-- **C66 (positivity with the inexact middle state).** Whatever positive pressure and whatever velocity the Newton iteration returned: if its residual is small compared to the sound speeds
behind the waves, the returned state has positive density and pressure and satisfies the equation of state. -/
theorem gas_exact_positive (eq : GasEq) (hv : eq.Valid) (dir : Fin d) (old left right : GasComplete d) (hl : IsGasState eq left) (hr : IsGasState eq right) (limit : Int) (pM uM lam : ℝ)
    (hm : gasMiddle eq limit left right dir = some (pM, uM)) (hp : 0 < pM)
    (hres : ∀ Q ∈ [left, right], (eq.gamma - 1) * |gasExactF eq.gamma dir left right pM| <
      2 * (eq.gamma + 1) * (Q.speedOfSound * (pM / Q.pressure) ^ ((eq.gamma - 1) / (2 * eq.gamma)))) :
    ∃ q, gasExactSample eq pM uM old left right lam dir = some q ∧ IsGasState eq q := by
  obtain ⟨v1, v2⟩ := gas_middle_velocity eq limit left right dir _ hm
  simp only at v1 v2
  have hg := hv.one_lt
  have hd : 0 < left.density ∧ 0 < right.density := ⟨hl.density_pos, hr.density_pos⟩
  have hpp : 0 < left.pressure ∧ 0 < right.pressure ∧ 0 < pM := ⟨hl.pressure_pos, hr.pressure_pos, hp⟩
  have key : ∀ (Q : GasComplete d) (σ : ℝ), IsGasState eq Q → (σ = 1 ∨ σ = -1) → Q ∈ [left, right] → pM ≤ Q.pressure →
      σ * (uM - (Q.vel dir + σ * gasWave eq.gamma Q.density Q.pressure Q.speedOfSound pM)) = - (gasExactF eq.gamma dir left right pM / 2) →
      σ * (uM + σ * (Q.speedOfSound * (pM / Q.pressure) ^ ((eq.gamma - 1) / (2 * eq.gamma)))) ≤ σ * lam →
      0 < 2 / (eq.gamma + 1) - σ * ((eq.gamma - 1) / (eq.gamma + 1) * (Q.vel dir - lam) / Q.speedOfSound) := by
    intro Q σ hQ hσ hmem hc hu hlam
    have σσ : σ * σ = 1 := by rcases hσ with rfl | rfl <;> norm_num
    obtain ⟨aM0, -, -, -, -, wave⟩ := rar_scalar (hQ.wave hv) hp hc
    have h1 := hres Q hmem
    have a0 := hQ.sound_pos
    have hgm : 0 < eq.gamma - 1 := by linarith
    have hgp : 0 < eq.gamma + 1 := by linarith
    have e : 2 / (eq.gamma + 1) - σ * ((eq.gamma - 1) / (eq.gamma + 1) * (Q.vel dir - lam) / Q.speedOfSound) =
        (2 * Q.speedOfSound - (eq.gamma - 1) * (σ * (Q.vel dir - lam))) / ((eq.gamma + 1) * Q.speedOfSound) := by field_simp
    rw [e]
    refine div_pos ?_ (mul_pos hgp a0)
    rw [wave] at hu
    generalize Q.speedOfSound * (pM / Q.pressure) ^ ((eq.gamma - 1) / (2 * eq.gamma)) = aM at *
    have e2 : (eq.gamma - 1) * (2 / (eq.gamma - 1)) = 2 := by field_simp
    have hF := neg_abs_le (gasExactF eq.gamma dir left right pM)
    have hF' := le_abs_self (gasExactF eq.gamma dir left right pM)
    generalize gasExactF eq.gamma dir left right pM = F at *
    have h2 : σ * (uM + σ * aM) = σ * uM + aM := by linear_combination aM * σσ
    rw [h2] at hlam
    have h3 : σ * (uM - (Q.vel dir + σ * (2 / (eq.gamma - 1) * (aM - Q.speedOfSound)))) =
        σ * uM - σ * Q.vel dir - 2 / (eq.gamma - 1) * (aM - Q.speedOfSound) := by linear_combination -(2 / (eq.gamma - 1) * (aM - Q.speedOfSound)) * σσ
    rw [h3] at hu
    have h4 : σ * Q.vel dir - σ * lam ≤ F / 2 - 2 / (eq.gamma - 1) * (aM - Q.speedOfSound) - aM := by linarith
    have h5 := mul_le_mul_of_nonneg_left h4 hgm.le
    have h6 : (eq.gamma - 1) * (F / 2 - 2 / (eq.gamma - 1) * (aM - Q.speedOfSound) - aM) = (eq.gamma - 1) * F / 2 - 2 * (aM - Q.speedOfSound) - (eq.gamma - 1) * aM := by
      linear_combination -(aM - Q.speedOfSound) * e2
    have h7 := mul_le_mul_of_nonneg_left hF' hgm.le
    have h8 : σ * (Q.vel dir - lam) = σ * Q.vel dir - σ * lam := by ring
    rw [h8]; linarith
  rcases le_or_gt lam uM with hlam | hlam
  · simp only [gasExactSample, if_pos hd, if_pos hpp, if_pos hlam]
    have r1 := gasInner_valid eq hv dir left hl uM hp
    split
    · rename_i hc
      simp only [gasInner, if_pos hc] at r1
      split
      · exact ⟨_, rfl, r1.1⟩
      · exact ⟨_, rfl, hl⟩
    · rename_i hc
      simp only [gasInner, if_neg hc] at r1
      split
      · exact ⟨_, rfl, hl⟩
      · split
        · exact ⟨_, rfl, r1.1⟩
        · rename_i h1 h2
          have e1 : left.momentum dir / left.density = left.vel dir := rfl
          have hb := key left (-1) hl (Or.inr rfl) (by simp) (not_lt.1 hc) (by linarith) (by linarith)
          obtain ⟨p0, rho0, -, -⟩ := fan_scalar (hl.wave hv) hb
          have e2 : 2 / (eq.gamma + 1) - -1 * ((eq.gamma - 1) / (eq.gamma + 1) * (left.vel dir - lam) / left.speedOfSound) =
            2 / (eq.gamma + 1) + (eq.gamma - 1) / (eq.gamma + 1) * (left.vel dir - lam) / left.speedOfSound := by ring
          rw [e2] at p0 rho0
          exact ⟨_, rfl, exactState_valid eq hv dir left rho0 p0⟩
  · simp only [gasExactSample, if_pos hd, if_pos hpp, if_neg (not_le.2 hlam)]
    have r1 := gasInner_valid eq hv dir right hr uM hp
    split
    · rename_i hc
      simp only [gasInner, if_pos hc] at r1
      split
      · exact ⟨_, rfl, r1.1⟩
      · exact ⟨_, rfl, hr⟩
    · rename_i hc
      simp only [gasInner, if_neg hc] at r1
      split
      · exact ⟨_, rfl, hr⟩
      · split
        · exact ⟨_, rfl, r1.1⟩
        · rename_i h1 h2
          have hb := key right 1 hr (Or.inl rfl) (by simp) (not_lt.1 hc) (by linarith) (by linarith)
          obtain ⟨p0, rho0, -, -⟩ := fan_scalar (hr.wave hv) hb
          simp only [one_mul] at p0 rho0
          exact ⟨_, rfl, exactState_valid eq hv dir right rho0 p0⟩

/-- **C66 (array versions).** A lane of the array version returns what the scalar version returns; a masked-out lane and a lane with a nonpositive density is zero, and a failure in a masked-out
lane cannot occur. -/
theorem gas_exact_masked (eq : GasEq) (limit : Int) (left right : GasComplete d) (dir : Fin d) :
    gasExactSolveMasked eq limit left right false dir = some .zero ∧
    (left.density ≤ 0 ∨ right.density ≤ 0 → gasExactSolveMasked eq limit left right true dir = some .zero) ∧
    (0 < left.density → 0 < right.density → ∀ old, gasExactSolveMasked eq limit left right true dir = gasExactSolve eq limit old left right dir) := by
  refine ⟨rfl, fun h => ?_, fun h1 h2 old => ?_⟩
  · rw [gasExactSolveMasked, if_pos rfl, gasExactSolve, if_neg]
    rintro ⟨h1, h2⟩; rcases h with h | h <;> linarith
  · rw [gasExactSolveMasked, if_pos rfl]
    simp only [gasExactSolve, if_pos (And.intro h1 h2), gasExactSample]

/-! ### A concrete case

A gas with `γ = 2` at rest with a jump in the temperature: the middle state is the common pressure, the solution is a contact discontinuity. -/

/-- `γ = 2`. -/
noncomputable def exampleGas2 : GasEq := ⟨1, 2, 1, 2, 1⟩

theorem exampleGas2_valid : exampleGas2.Valid := ⟨by norm_num [exampleGas2], by norm_num [exampleGas2], rfl, rfl⟩

/-- Density 2, pressure 1 (sound speed 1) or density 1/2, pressure 1 (sound speed 2), velocity `u`. -/
noncomputable def exLeft (u : ℝ) : GasComplete 1 := ⟨2, fun _ => 2 * u, 1 + u ^ 2, 1, 1⟩
noncomputable def exRight (u : ℝ) : GasComplete 1 := ⟨1 / 2, fun _ => 1 / 2 * u, 1 + u ^ 2 / 4, 1, 2⟩

theorem exLeft_state (u : ℝ) : IsGasState exampleGas2 (exLeft u) :=
  ⟨by norm_num [exLeft], by norm_num [exLeft], by simp [exLeft, exampleGas2]; ring, by norm_num [exLeft], by norm_num [exLeft, exampleGas2]⟩

theorem exRight_state (u : ℝ) : IsGasState exampleGas2 (exRight u) :=
  ⟨by norm_num [exRight], by norm_num [exRight], by simp [exRight, exampleGas2]; ring, by norm_num [exRight], by norm_num [exRight, exampleGas2]⟩

/-- The hypotheses of `gas_exact_solver`, `gas_exact_signals` and `gas_exact_positive` are met by a moving contact. -/
example (u : ℝ) (limit : Int) : gasMiddle exampleGas2 limit (exLeft u) (exRight u) 0 = some (1, u) ∧ gasExactF exampleGas2.gamma 0 (exLeft u) (exRight u) 1 = 0 := by
  have hw : ∀ rho a : ℝ, gasWave 2 rho 1 a 1 = 0 := by intro rho a; rw [gasWave, if_neg (lt_irrefl _), div_one, Real.one_rpow]; ring
  have hF : gasExactF 2 0 (exLeft u) (exRight u) 1 = 0 := by
    simp only [gasExactF, exLeft, exRight, hw]; ring
  refine ⟨?_, hF⟩
  have hn := newton_fixed (gasExactF 2 0 (exLeft u) (exRight u)) (gasExactDF 2 (exLeft u) (exRight u)) 1 (1 / 10 ^ 7) limit (by norm_num) hF
  have e : 1 / 2 * ((exLeft u).pressure + (exRight u).pressure) = 1 := by norm_num [exLeft, exRight]
  have e2 : exampleGas2.gamma = 2 := rfl
  simp only [gasMiddle, e2, e, hn]
  congr 2
  simp only [exLeft, exRight, hw]; ring

/-- Both sides of the vacuum condition occur. -/
example : (exRight 0).vel 0 - (exLeft 0).vel 0 < 2 * ((exLeft 0).speedOfSound + (exRight 0).speedOfSound) / (exampleGas2.gamma - 1) ∧
    2 * ((exLeft 0).speedOfSound + (exRight 7).speedOfSound) / (exampleGas2.gamma - 1) + 1 / 10 ^ 7 < (exRight 7).vel 0 - (exLeft 0).vel 0 := by
  constructor <;> norm_num [exLeft, exRight, GasComplete.vel, exampleGas2]

/-- Proper shocks and rarefactions occur: every positive pressure and suitable velocities give a case of `gas_exact_solution`. -/
example (pM : ℝ) : ∃ uR, let uM := (exLeft 0).vel 0 - gasWave exampleGas2.gamma (exLeft 0).density (exLeft 0).pressure (exLeft 0).speedOfSound pM
    uM = (exRight uR).vel 0 + gasWave exampleGas2.gamma (exRight uR).density (exRight uR).pressure (exRight uR).speedOfSound pM := by
  refine ⟨(exLeft 0).vel 0 - gasWave exampleGas2.gamma (exLeft 0).density (exLeft 0).pressure (exLeft 0).speedOfSound pM - gasWave exampleGas2.gamma (1 / 2) 1 2 pM, ?_⟩
  simp only [exRight, GasComplete.vel]
  ring

end Fub
