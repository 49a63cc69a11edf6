import Verif.Spec.Reconstruct
import Mathlib.Tactic.Ring
import Mathlib.Tactic.FieldSimp
import Mathlib.Tactic.Linarith
import Mathlib.Tactic.Positivity

/-!
# C48, C61: reconstruction in primitive and characteristic variables
-/

namespace Fub
variable {d s t : ℕ}

/-- **C48 (primitive).** For every rank, state, slope, time step, cell width, direction and side: the primitive reconstruction is the half step predictor of the Euler equations. -/
theorem primReconstruct_predictor (a : ℝ) (w dw : Prim d s t) (dt dx : ℝ) (hdx : dx ≠ 0) (ix : Fin (d + 1)) (upper : Bool) :
    primReconstruct a w dw dt dx ix upper = predictor 1 a w dw dt dx ix upper := by
  ext i <;> simp only [primReconstruct, predictor, eulerRate, sideSign] <;> cases upper <;> simp only [Bool.false_eq_true, if_true, if_false, one_mul] <;>
    (try split_ifs with h) <;> (try subst h) <;> field_simp <;> ring

/-- **C48 (characteristic).** Without Mach number scaling: for every rank, pair of neighbouring states, base state with positive density and speed of sound, time step, cell width,
direction and side, decomposing the slope into characteristic amplitudes and reconstructing with these gives exactly the half step predictor, as the primitive
reconstruction does; the vectorised version gives the same. -/
theorem charReconstruct_predictor (c : ℝ) (w wl wr : Prim d s t) (dt dx : ℝ) (hdx : dx ≠ 0) (hc : c ≠ 0) (hrho : w.density ≠ 0) (ix : Fin (d + 1)) (upper : Bool) :
    charReconstruct 1 c w (amplitudes 1 wl wr (w.density * c) (1 / (c * c)) dx ix) dt dx ix upper = predictor 1 c w (primSlope dx wl wr) dt dx ix upper ∧
    charReconstructArray c w (amplitudes 1 wl wr (w.density * c) (1 / (c * c)) dx ix) dt dx ix upper = predictor 1 c w (primSlope dx wl wr) dt dx ix upper := by
  have hs : Real.sqrt 1 = 1 := Real.sqrt_one
  have hz : ∀ i, i ≠ ix → i - ix ≠ 0 := fun i h h0 => h (sub_eq_zero.1 h0)
  have ha : ∀ i, ix + (i - ix) = i := fun i => by abel
  constructor
  all_goals
    ext i
    all_goals simp only [charReconstruct, charReconstructArray, amplitudes, predictor, eulerRate, primSlope, sideSign, hs]
    case velocity =>
      by_cases h : i = ix
      · subst h
        cases upper <;> simp only [Bool.false_eq_true, if_true, if_false, one_mul] <;> field_simp <;> ring
      · simp only [h, hz i h, ha, if_false]
        cases upper <;> simp only [Bool.false_eq_true, if_true, if_false, one_mul] <;> field_simp <;> ring
    all_goals
      cases upper <;> simp only [Bool.false_eq_true, if_true, if_false, one_mul] <;> field_simp <;> ring

/-- **C48 is false with Mach number scaling.** For every positive square `Msq` of the Mach number: without time step the scalar version multiplies the slope of the normal velocity by
`1 / M` and the vectorised version by `M`. So a slope that is not zero is only kept if the Mach number is one. -/
theorem charReconstruct_mach_wrong (Msq : ℝ) (hM : 0 < Msq) (c : ℝ) (w wl wr : Prim d s t) (dx : ℝ) (hdx : dx ≠ 0) (hc : c ≠ 0) (hrho : w.density ≠ 0) (ix : Fin (d + 1)) :
    let K := amplitudes Msq wl wr (w.density * c) (1 / (c * c)) dx ix
    let du := (wr.velocity ix - wl.velocity ix) / dx
    (charReconstruct Msq c w K 0 dx ix true).velocity ix = w.velocity ix + dx / 2 * (du / Real.sqrt Msq) ∧
    (charReconstructArray c w K 0 dx ix true).velocity ix = w.velocity ix + dx / 2 * (Real.sqrt Msq * du) ∧
    ((charReconstruct Msq c w K 0 dx ix true).velocity ix = w.velocity ix + dx / 2 * du ↔ Msq = 1 ∨ du = 0) ∧
    ((charReconstruct Msq c w K 0 dx ix true).velocity ix = (charReconstructArray c w K 0 dx ix true).velocity ix ↔ Msq = 1 ∨ du = 0) := by
  intro K du
  have hS : 0 < Real.sqrt Msq := Real.sqrt_pos.2 hM
  have hS2 : Real.sqrt Msq ^ 2 = Msq := Real.sq_sqrt hM.le
  have h1 : (charReconstruct Msq c w K 0 dx ix true).velocity ix = w.velocity ix + dx / 2 * (du / Real.sqrt Msq) := by
    have hne : Msq ≠ 0 := hM.ne'
    simp only [charReconstruct, amplitudes, sideSign, K, if_true, du]
    have e : (1 : ℝ) / Msq = 1 / Real.sqrt Msq ^ 2 := by rw [hS2]
    rw [e]
    field_simp
    ring
  have h2 : (charReconstructArray c w K 0 dx ix true).velocity ix = w.velocity ix + dx / 2 * (Real.sqrt Msq * du) := by
    simp only [charReconstructArray, amplitudes, sideSign, K, if_true, du]
    field_simp
    ring
  have hone : Real.sqrt Msq = 1 ↔ Msq = 1 := by
    constructor
    · intro h; rw [← hS2, h]; norm_num
    · intro h; rw [h]; exact Real.sqrt_one
  have hx2 : dx / 2 ≠ 0 := by simpa using hdx
  refine ⟨h1, h2, ?_, ?_⟩
  · rw [h1, add_right_inj, mul_right_inj' hx2, ← hone, div_eq_iff hS.ne']
    constructor
    · intro h
      by_cases hd : du = 0
      · exact Or.inr hd
      · left
        have : du * 1 = du * Real.sqrt Msq := by rw [mul_one]; exact h
        exact (mul_left_cancel₀ hd this).symm
    · rintro (h | h)
      · rw [h, mul_one]
      · rw [h, zero_mul]
  · rw [h1, h2, add_right_inj, mul_right_inj' hx2, ← hone, div_eq_iff hS.ne']
    constructor
    · intro h
      by_cases hd : du = 0
      · exact Or.inr hd
      · left
        have h3 : du * 1 = du * (Real.sqrt Msq ^ 2) := by rw [mul_one]; linear_combination h
        have h4 := mul_left_cancel₀ hd h3
        nlinarith [sq_nonneg (Real.sqrt Msq - 1)]
    · rintro (h | h)
      · rw [h]; ring
      · rw [h]; ring

/-- **C48 (primitive, Mach number).** The primitive reconstruction ignores the Mach number: its normal velocity differs from the predictor of the scaled equations by
`dt / 2 (1 - 1 / Msq) dp / rho`. -/
theorem primReconstruct_mach (Msq a : ℝ) (hM : Msq ≠ 0) (w dw : Prim d s t) (dt dx : ℝ) (hdx : dx ≠ 0) (hrho : w.density ≠ 0) (ix : Fin (d + 1)) (upper : Bool) :
    (predictor Msq a w dw dt dx ix upper).velocity ix - (primReconstruct a w dw dt dx ix upper).velocity ix = dt / 2 * (1 - 1 / Msq) * (dw.pressure / w.density) := by
  rw [primReconstruct_predictor a w dw dt dx hdx]
  simp only [predictor, eulerRate, if_true, one_mul]
  field_simp
  ring

/-- The two face values of a cell differ by the slope times the cell width, whatever the time step is. -/
theorem primReconstruct_jump (a : ℝ) (w dw : Prim d s t) (dt dx : ℝ) (hdx : dx ≠ 0) (ix : Fin (d + 1)) :
    let hi := primReconstruct a w dw dt dx ix true
    let lo := primReconstruct a w dw dt dx ix false
    hi.density - lo.density = dx * dw.density ∧ (∀ i, hi.velocity i - lo.velocity i = dx * dw.velocity i) ∧ hi.pressure - lo.pressure = dx * dw.pressure ∧
    (∀ i, hi.species i - lo.species i = dx * dw.species i) ∧ ∀ i, hi.scalars i - lo.scalars i = dx * dw.scalars i := by
  intro hi lo
  simp only [hi, lo, primReconstruct_predictor a w dw dt dx hdx, predictor, if_true, Bool.false_eq_true, if_false]
  refine ⟨by ring, fun i => by ring, by ring, fun i => by ring, fun i => by ring⟩

theorem centralGradient_self (limiter : ℝ → ℝ) (h1 : limiter 1 = 1) (x : ℝ) : centralGradient limiter x x = x := by
  unfold centralGradient
  by_cases hx : x = 0
  · subst hx; simp
  · rw [if_neg (not_le.2 (mul_self_pos.2 hx)), div_self hx]; simp only [h1]; ring

/-- **C48 (linear data).** For a limiter with value one at one, on a linear profile the limited primitive gradient is the slope of the profile and the limited characteristic gradient
is the amplitudes of this slope; both reconstructions with these gradients are the predictor for the exact slope. -/
theorem gradient_linear (limiter : ℝ → ℝ) (h1 : limiter 1 = 1) (c dx dt : ℝ) (hdx : dx ≠ 0) (hc : c ≠ 0) (wL wM wR : Prim d s t) (hrho : wM.density ≠ 0) (ix : Fin (d + 1)) (upper : Bool)
    (hlin : primSlope dx wL wM = primSlope dx wM wR) :
    primGradient limiter wL wM wR dx = primSlope dx wL wM ∧
    primReconstruct c wM (primGradient limiter wL wM wR dx) dt dx ix upper = predictor 1 c wM (primSlope dx wL wM) dt dx ix upper ∧
    charReconstruct 1 c wM (charGradient limiter 1 wL wM wR c dx ix) dt dx ix upper = predictor 1 c wM (primSlope dx wL wM) dt dx ix upper ∧
    charReconstructArray c wM (charGradient limiter 1 wL wM wR c dx ix) dt dx ix upper = predictor 1 c wM (primSlope dx wL wM) dt dx ix upper := by
  have hg : primGradient limiter wL wM wR dx = primSlope dx wL wM := by
    simp only [primGradient, ← hlin, centralGradient_self limiter h1]
  have hamp : amplitudes 1 wM wR (wM.density * c) (1 / (c * c)) dx ix = amplitudes 1 wL wM (wM.density * c) (1 / (c * c)) dx ix := by
    have e1 := congrArg Prim.density hlin
    have e2 : ∀ i, (wM.velocity i - wL.velocity i) / dx = (wR.velocity i - wM.velocity i) / dx := fun i => congrFun (congrArg Prim.velocity hlin) i
    have e3 := congrArg Prim.pressure hlin
    have e4 : ∀ i, (wM.species i - wL.species i) / dx = (wR.species i - wM.species i) / dx := fun i => congrFun (congrArg Prim.species hlin) i
    have e5 : ∀ i, (wM.scalars i - wL.scalars i) / dx = (wR.scalars i - wM.scalars i) / dx := fun i => congrFun (congrArg Prim.scalars hlin) i
    simp only [primSlope] at e1 e3
    simp only [amplitudes, e1, e2, e3, e4, e5]
  have hk : charGradient limiter 1 wL wM wR c dx ix = amplitudes 1 wL wM (wM.density * c) (1 / (c * c)) dx ix := by
    simp only [charGradient, hamp, centralGradient_self limiter h1]
  obtain ⟨h2, h3⟩ := charReconstruct_predictor c wM wL wM dt dx hdx hc hrho ix upper
  exact ⟨hg, by rw [hg, primReconstruct_predictor _ _ _ _ _ hdx], by rw [hk, h2], by rw [hk, h3]⟩

/-- **C48 (every variable by itself).** The limited primitive gradient of every variable is the limited gradient of the two one-sided difference
quotients of this variable, and that of every characteristic variable is the limited gradient of its two amplitudes, with density and speed of sound of
the middle cell: left and right are not exchanged and no variable sees another one. -/
theorem gradient_components (limiter : ℝ → ℝ) (Msq c dx : ℝ) (wL wM wR : Prim d s t) (ix : Fin (d + 1)) :
    (let g := primGradient limiter wL wM wR dx
     let q := fun f : Prim d s t → ℝ => centralGradient limiter ((f wM - f wL) / dx) ((f wR - f wM) / dx)
     g.density = q (·.density) ∧ (∀ i, g.velocity i = q (·.velocity i)) ∧ g.pressure = q (·.pressure) ∧ (∀ i, g.species i = q (·.species i)) ∧
       ∀ i, g.scalars i = q (·.scalars i)) ∧
    (let g := charGradient limiter Msq wL wM wR c dx ix
     let q := fun f : Prim d s t → ℝ => centralGradient limiter ((f wM - f wL) / dx) ((f wR - f wM) / dx)
     g.minus = q (fun w => w.pressure - Real.sqrt Msq * (wM.density * c) * w.velocity ix) ∧
       g.plus = q (fun w => w.pressure + Real.sqrt Msq * (wM.density * c) * w.velocity ix) ∧
       g.zero 0 = q (fun w => w.density - w.pressure / c ^ 2) ∧ (∀ i, i ≠ 0 → g.zero i = q (·.velocity (ix + i))) ∧
       (∀ i, g.species i = q (·.species i)) ∧ ∀ i, g.scalars i = q (·.scalars i)) := by
  refine ⟨⟨rfl, fun _ => rfl, rfl, fun _ => rfl, fun _ => rfl⟩, ?_, ?_, ?_, fun i hi => ?_, fun _ => rfl, fun _ => rfl⟩
  · simp only [charGradient, amplitudes]; congr 1 <;> ring
  · simp only [charGradient, amplitudes]; congr 1 <;> ring
  · simp only [charGradient, amplitudes, if_true]; congr 1 <;> ring
  · simp only [charGradient, amplitudes, hi, if_false]

/-- Around equal states all reconstructions give this state, for every limiter and every Mach number. -/
theorem reconstruct_constant (limiter : ℝ → ℝ) (Msq c dx dt : ℝ) (w : Prim d s t) (ix : Fin (d + 1)) (upper : Bool) :
    primReconstruct c w (primGradient limiter w w w dx) dt dx ix upper = w ∧
    charReconstruct Msq c w (charGradient limiter Msq w w w c dx ix) dt dx ix upper = w ∧
    charReconstructArray c w (charGradient limiter Msq w w w c dx ix) dt dx ix upper = w := by
  have h0 : centralGradient limiter 0 0 = 0 := by simp [centralGradient]
  refine ⟨?_, ?_, ?_⟩
  · ext i <;> simp [primReconstruct, primGradient, primSlope, h0]
    intro h; rw [h]
  · have hz : ∀ i : Fin (d + 1), (if i = 0 then (0 : ℝ) else 0) = 0 := fun i => by split_ifs <;> rfl
    ext i <;> simp [charReconstruct, charGradient, amplitudes, h0]
  · ext i <;> simp [charReconstructArray, charGradient, amplitudes, h0]

/-! ## Inverse reconstruction -/

/-- **C61, what holds.** If the slope of the pressure is zero and the two factors do not vanish, inverting the reconstruction of a state of a perfect gas gives back density, velocity,
pressure and mass fractions, for every rank, slope, time step and side; the passive scalars are off by `dt u` times their slope. -/
theorem reconstructInvers_partial (gamma a : ℝ) (w dw : Prim d s t) (dt dx : ℝ) (hdx : dx ≠ 0) (ix : Fin (d + 1)) (upper : Bool) (hdp : dw.pressure = 0)
    (ha : w.density * (a * a) = gamma * w.pressure) (h1 : 1 - 1 / 2 * dt * dw.velocity ix ≠ 0) (hg : 1 - gamma * (1 / 2 * dt) * dw.velocity ix ≠ 0) :
    primReconstructInvers gamma (primReconstruct a w dw dt dx ix upper) dw dt dx ix upper =
      some { w with scalars := fun i => w.scalars i - dt * w.velocity ix * dw.scalars i } := by
  have hsg : sideSign upper = 1 ∨ sideSign upper = -1 := by cases upper <;> simp [sideSign]
  have hss : sideSign upper * sideSign upper = 1 := by rcases hsg with h | h <;> rw [h] <;> norm_num
  have hel : sideSign upper * (1 / 2) * dx * (sideSign upper * dt / dx) = 1 / 2 * dt := by
    field_simp; linear_combination dt * hss
  simp only [primReconstructInvers, primReconstruct, hdp, if_true]
  rw [if_neg (not_or.2 ⟨h1, hg⟩)]
  generalize sideSign upper * (1 / 2) * dx = eta at hel
  generalize sideSign upper * dt / dx = lam at hel
  have hu : (w.velocity ix + eta * (dw.velocity ix - lam * (w.velocity ix * dw.velocity ix + 0 / w.density)) - eta * dw.velocity ix) / (1 - 1 / 2 * dt * dw.velocity ix) = w.velocity ix := by
    rw [div_eq_iff h1, zero_div]
    linear_combination (-(w.velocity ix * dw.velocity ix)) * hel
  simp only [Option.map_some, hu, Option.some.injEq]
  ext i
  · rw [div_eq_iff h1]
    linear_combination (-(w.density * dw.velocity ix)) * hel
  · simp only
    by_cases h : i = ix
    · simp [h]
    · simp only [h, if_false]; ring
  · rw [div_eq_iff hg, ha]
    linear_combination (-(gamma * w.pressure * dw.velocity ix)) * hel
  · simp only; ring
  · simp only
    linear_combination (-2 * (w.velocity ix * dw.scalars i)) * hel

/-- **C61 is false.** With a slope of the pressure, the inverse fails (division by zero) if the time step or the slope of the density is zero. -/
theorem reconstructInvers_fails (gamma : ℝ) (w dw : Prim d s t) (dt dx : ℝ) (ix : Fin (d + 1)) (upper : Bool) (hdp : dw.pressure ≠ 0) (h : dt = 0 ∨ dw.density = 0) :
    primReconstructInvers gamma w dw dt dx ix upper = none := by
  simp only [primReconstructInvers]
  split_ifs with h1 h2
  · rfl
  · rfl
  · exfalso
    apply h2
    right
    rcases h with h | h <;> rw [h] <;> ring

/-- **C61 is false.** A state at rest (density 1, pressure 10) with slopes 1 of the density and 3 of the pressure, `dt = dx = 2`: the inverse of the reconstruction has the velocity 2. The
linear coefficient of the quadratic equation has a wrong sign. -/
theorem reconstructInvers_wrong (gamma : ℝ) :
    let w : Prim 0 0 0 := ⟨1, fun _ => 0, 10, fun _ => 0, fun _ => 0⟩
    let dw : Prim 0 0 0 := ⟨1, fun _ => 0, 3, fun _ => 0, fun _ => 0⟩
    ∃ w', primReconstructInvers gamma (primReconstruct (Real.sqrt (gamma * 10)) w dw 2 2 0 true) dw 2 2 0 true = some w' ∧ w'.velocity 0 = 2 := by
  intro w dw
  have hD : Real.sqrt 4 = 2 := by rw [show (4 : ℝ) = 2 * 2 by norm_num, Real.sqrt_mul_self (by norm_num)]
  simp only [primReconstructInvers, primReconstruct, w, dw, sideSign, if_true]
  norm_num [hD]

/-! ## Concrete cases -/

/-- The predictor moves a state with slopes in all variables; the hypotheses of the theorems about gas states hold for it. -/
example : let w : Prim 1 1 1 := ⟨2, ![1, 3], 5, fun _ => 1, fun _ => 4⟩
    let dw : Prim 1 1 1 := ⟨1, ![2, 1], 0, fun _ => 1, fun _ => 2⟩
    w.density ≠ 0 ∧ dw.pressure = 0 ∧ (1 - 1 / 2 * (1 / 10) * dw.velocity 0 ≠ 0) ∧ (1 - (7 / 5) * (1 / 2 * (1 / 10)) * dw.velocity 0 ≠ 0) ∧
    w.density * (Real.sqrt (7 / 2) * Real.sqrt (7 / 2)) = 7 / 5 * w.pressure := by
  refine ⟨by norm_num, rfl, by norm_num, by norm_num, ?_⟩
  rw [Real.mul_self_sqrt (by norm_num)]
  norm_num

/-- A linear profile. -/
example : let w : ℝ → Prim 0 0 0 := fun x => ⟨2 + x, fun _ => 1 - x, 5 + 2 * x, fun _ => 0, fun _ => 0⟩
    primSlope 1 (w (-1)) (w 0) = primSlope 1 (w 0) (w 1) ∧ minModLimiter (1 : ℝ) = 1 ∧ vanLeerLimiter (1 : ℝ) = 1 := by
  refine ⟨?_, by norm_num [minModLimiter], by norm_num [vanLeerLimiter]⟩
  ext i <;> norm_num [primSlope]

end Fub
