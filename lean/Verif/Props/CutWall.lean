import Verif.Props.Gas
import Verif.Props.GasExact
import Verif.Model.CutCell
import Verif.Spec.CutCell
import Mathlib.Data.Fin.VecNotation
import Mathlib.Algebra.BigOperators.Fin

/-!
# C71–C72: rotations and the wall of a cut cell
-/

namespace Fub
open Finset

/-! ### C71: rotations -/

theorem ortho_neg_one {d : ℕ} : IsOrtho (fun i j : Fin d => if i = j then (-1 : ℝ) else 0) := by
  intro j k
  simp only [ite_mul, zero_mul, mul_ite, mul_zero, Finset.sum_ite_eq', Finset.sum_ite_eq, mem_univ, if_true]
  by_cases h : j = k
  · simp [h]
  · simp [h, Ne.symm h]

/-- **C71 (two dimensions).** `MakeRotation` is an orthogonal matrix that maps the first unit vector to the second, and swapping the arguments transposes it. -/
theorem make_rotation2 : IsRotationMaker makeRotation2 := by
  intro a b ha hb
  simp only [IsUnit', Fin.sum_univ_two] at ha hb
  by_cases h : a = fun i => -b i
  · have h' : b = fun i => -a i := by rw [h]; simp
    have e1 : makeRotation2 a b = fun i j => if i = j then -1 else 0 := by unfold makeRotation2; rw [if_pos h]
    have e2 : makeRotation2 b a = fun i j => if i = j then -1 else 0 := by unfold makeRotation2; rw [if_pos h']
    rw [e1, e2]
    refine ⟨ortho_neg_one, fun i => ?_, fun i j => by simp [eq_comm]⟩
    simp [h]
  · have h' : ¬b = fun i => -a i := fun hc => h (by rw [hc]; simp)
    have e1 : makeRotation2 a b = ![![a 0 * b 0 + a 1 * b 1, -(a 0 * b 1 - a 1 * b 0)], ![a 0 * b 1 - a 1 * b 0, a 0 * b 0 + a 1 * b 1]] := by
      unfold makeRotation2; rw [if_neg h]
    have e2 : makeRotation2 b a = ![![b 0 * a 0 + b 1 * a 1, -(b 0 * a 1 - b 1 * a 0)], ![b 0 * a 1 - b 1 * a 0, b 0 * a 0 + b 1 * a 1]] := by
      unfold makeRotation2; rw [if_neg h']
    rw [e1, e2]
    refine ⟨?_, ?_, ?_⟩
    · simp only [IsOrtho, Fin.forall_fin_two, Fin.sum_univ_two, Matrix.cons_val_zero, Matrix.cons_val_one]
      refine ⟨⟨?_, ?_⟩, ?_, ?_⟩
      · rw [if_pos trivial]; linear_combination (b 0 ^ 2 + b 1 ^ 2) * ha + hb
      · rw [if_neg (by decide)]; ring
      · rw [if_neg (by decide)]; ring
      · rw [if_pos trivial]; linear_combination (b 0 ^ 2 + b 1 ^ 2) * ha + hb
    · simp only [Fin.forall_fin_two, Fin.sum_univ_two, Matrix.cons_val_zero, Matrix.cons_val_one]
      exact ⟨by linear_combination b 0 * ha, by linear_combination b 1 * ha⟩
    · simp only [Fin.forall_fin_two, Matrix.cons_val_zero, Matrix.cons_val_one]
      exact ⟨⟨by ring, by ring⟩, by ring, by ring⟩

/-- The matrix of `MakeRotation` in three dimensions, entry by entry. -/
theorem makeRotation3_apply (a b : Fin 3 → ℝ) (h : ¬a = fun i => -b i) :
    let v0 := a 1 * b 2 - a 2 * b 1
    let v1 := a 2 * b 0 - a 0 * b 2
    let v2 := a 0 * b 1 - a 1 * b 0
    let c := a 0 * b 0 + a 1 * b 1 + a 2 * b 2
    makeRotation3 a b = ![
      ![1 - (v1 ^ 2 + v2 ^ 2) / (1 + c), -v2 + v0 * v1 / (1 + c), v1 + v0 * v2 / (1 + c)],
      ![v2 + v0 * v1 / (1 + c), 1 - (v0 ^ 2 + v2 ^ 2) / (1 + c), -v0 + v1 * v2 / (1 + c)],
      ![-v1 + v0 * v2 / (1 + c), v0 + v1 * v2 / (1 + c), 1 - (v0 ^ 2 + v1 ^ 2) / (1 + c)]] := by
  intro v0 v1 v2 c
  unfold makeRotation3
  rw [if_neg h]
  funext i j
  simp only [Fin.sum_univ_three]
  change _ + _ + _ / (1 + c) = _
  fin_cases i <;> fin_cases j <;> simp [v0, v1, v2] <;> ring

/-- **C71 (three dimensions).** As in two dimensions. For opposite vectors the matrix is minus the identity, which is orthogonal and maps one vector to the
other, but is a point reflection and not a rotation. -/
theorem make_rotation3 : IsRotationMaker makeRotation3 := by
  intro a b ha hb
  simp only [IsUnit', Fin.sum_univ_three] at ha hb
  by_cases h : a = fun i => -b i
  · have h' : b = fun i => -a i := by rw [h]; simp
    have e1 : makeRotation3 a b = fun i j => if i = j then -1 else 0 := by unfold makeRotation3; rw [if_pos h]
    have e2 : makeRotation3 b a = fun i j => if i = j then -1 else 0 := by unfold makeRotation3; rw [if_pos h']
    rw [e1, e2]
    refine ⟨ortho_neg_one, fun i => ?_, fun i j => by simp [eq_comm]⟩
    simp [h]
  · have h' : ¬b = fun i => -a i := fun hc => h (by rw [hc]; simp)
    have hc0 : 1 + (a 0 * b 0 + a 1 * b 1 + a 2 * b 2) ≠ 0 := by
      intro hc
      apply h
      have : (a 0 + b 0) ^ 2 + (a 1 + b 1) ^ 2 + (a 2 + b 2) ^ 2 = 0 := by linear_combination ha + hb + 2 * hc
      have z0 : a 0 + b 0 = 0 := by
        have := sq_nonneg (a 1 + b 1); have := sq_nonneg (a 2 + b 2); have := sq_nonneg (a 0 + b 0)
        exact pow_eq_zero_iff (two_ne_zero) |>.1 (by linarith)
      have z1 : a 1 + b 1 = 0 := by
        have := sq_nonneg (a 1 + b 1); have := sq_nonneg (a 2 + b 2); have := sq_nonneg (a 0 + b 0)
        exact pow_eq_zero_iff (two_ne_zero) |>.1 (by linarith)
      have z2 : a 2 + b 2 = 0 := by
        have := sq_nonneg (a 1 + b 1); have := sq_nonneg (a 2 + b 2); have := sq_nonneg (a 0 + b 0)
        exact pow_eq_zero_iff (two_ne_zero) |>.1 (by linarith)
      funext i
      fin_cases i <;> simp <;> linarith
    have e1 := makeRotation3_apply a b h
    have e2 := makeRotation3_apply b a h'
    simp only at e1 e2
    rw [e1, e2]
    have hlag : (a 1 * b 2 - a 2 * b 1) ^ 2 + (a 2 * b 0 - a 0 * b 2) ^ 2 + (a 0 * b 1 - a 1 * b 0) ^ 2 =
        1 - (a 0 * b 0 + a 1 * b 1 + a 2 * b 2) ^ 2 := by linear_combination (b 0 ^ 2 + b 1 ^ 2 + b 2 ^ 2) * ha + hb
    have hh : (1 + (a 0 * b 0 + a 1 * b 1 + a 2 * b 2))⁻¹ * (1 + (a 0 * b 0 + a 1 * b 1 + a 2 * b 2)) = 1 := inv_mul_cancel₀ hc0
    have hcomm : b 0 * a 0 + b 1 * a 1 + b 2 * a 2 = a 0 * b 0 + a 1 * b 1 + a 2 * b 2 := by ring
    rw [hcomm]
    simp only [div_eq_mul_inv]
    generalize (1 + (a 0 * b 0 + a 1 * b 1 + a 2 * b 2))⁻¹ = q at hh
    refine ⟨?_, ?_, ?_⟩
    · clear e1 e2 h h' ha hb hc0 hcomm
      generalize a 1 * b 2 - a 2 * b 1 = v0 at *
      generalize a 2 * b 0 - a 0 * b 2 = v1 at *
      generalize a 0 * b 1 - a 1 * b 0 = v2 at *
      generalize a 0 * b 0 + a 1 * b 1 + a 2 * b 2 = c at *
      have d0 : 1 - (v1 ^ 2 + v2 ^ 2) * q = c + v0 ^ 2 * q := by linear_combination -q * hlag - (1 - c) * hh
      have d1 : 1 - (v0 ^ 2 + v2 ^ 2) * q = c + v1 ^ 2 * q := by linear_combination -q * hlag - (1 - c) * hh
      have d2 : 1 - (v0 ^ 2 + v1 ^ 2) * q = c + v2 ^ 2 * q := by linear_combination -q * hlag - (1 - c) * hh
      rw [d0, d1, d2]
      intro j k
      simp only [Fin.sum_univ_three]
      fin_cases j <;> fin_cases k <;> simp
      · linear_combination (1 + q ^ 2 * v0 * v0) * hlag + v0 * v0 * (q * (1 - c) + 1) * hh
      · linear_combination (q ^ 2 * v0 * v1) * hlag + v0 * v1 * (q * (1 - c) + 1) * hh
      · linear_combination (q ^ 2 * v0 * v2) * hlag + v0 * v2 * (q * (1 - c) + 1) * hh
      · linear_combination (q ^ 2 * v0 * v1) * hlag + v0 * v1 * (q * (1 - c) + 1) * hh
      · linear_combination (1 + q ^ 2 * v1 * v1) * hlag + v1 * v1 * (q * (1 - c) + 1) * hh
      · linear_combination (q ^ 2 * v1 * v2) * hlag + v1 * v2 * (q * (1 - c) + 1) * hh
      · linear_combination (q ^ 2 * v0 * v2) * hlag + v0 * v2 * (q * (1 - c) + 1) * hh
      · linear_combination (q ^ 2 * v1 * v2) * hlag + v1 * v2 * (q * (1 - c) + 1) * hh
      · linear_combination (1 + q ^ 2 * v2 * v2) * hlag + v2 * v2 * (q * (1 - c) + 1) * hh
    · intro i
      simp only [Fin.sum_univ_three]
      fin_cases i <;> simp
      · linear_combination b 0 * ha + a 0 * (-q * hlag - (1 - (a 0 * b 0 + a 1 * b 1 + a 2 * b 2)) * hh)
      · linear_combination b 1 * ha + a 1 * (-q * hlag - (1 - (a 0 * b 0 + a 1 * b 1 + a 2 * b 2)) * hh)
      · linear_combination b 2 * ha + a 2 * (-q * hlag - (1 - (a 0 * b 0 + a 1 * b 1 + a 2 * b 2)) * hh)
    · intro i j
      fin_cases i <;> fin_cases j <;> simp <;> first | ring1 | (left; ring1)

/-- Opposite unit vectors and the general case both occur: the first unit vector is mapped to its opposite and to the second unit vector. -/
example : makeRotation2 ![1, 0] ![-1, 0] = (fun i j => if i = j then -1 else 0) ∧ makeRotation2 ![1, 0] ![0, 1] = ![![0, -1], ![1, 0]] := by
  constructor
  · unfold makeRotation2
    rw [if_pos (by funext i; fin_cases i <;> simp)]
  · unfold makeRotation2
    rw [if_neg (by intro h; have := congrFun h 0; simp at this)]
    simp

/-- **C71 (flux through an inclined face).** Rotating a state to the first direction, taking the flux there and rotating back gives the flux through a face with
normal `n`, for every rank for which `MakeRotation` is a rotation maker. -/
theorem make_rotation_flux {d : ℕ} [NeZero d] (rot : (Fin d → ℝ) → (Fin d → ℝ) → Fin d → Fin d → ℝ) (hrot : IsRotationMaker rot) (n : Fin d → ℝ)
    (hn : IsUnit' n) (q : GasComplete d) (hr : q.density ≠ 0) :
    gasRotateCons (rot (unitX d) n) (gasFluxArray (gasRotate (rot n (unitX d)) q) 0) = eulerNormalFlux q n := by
  have hu : IsUnit' (unitX d) := by simp [IsUnit', unitX, ite_pow]
  obtain ⟨ho, hm, ht⟩ := hrot n (unitX d) hn hu
  obtain ⟨ho', hm', -⟩ := hrot (unitX d) n hu hn
  have e : rot (unitX d) n = fun i j => rot n (unitX d) j i := by funext i j; exact ht i j
  have hrow : rot n (unitX d) 0 = n := by
    funext i
    have := hm' i
    simp only [unitX, mul_ite, mul_one, mul_zero, Finset.sum_ite_eq', mem_univ, if_true] at this
    rw [← this, e]
  rw [e, gas_rotate_flux _ ho q hr 0, hrow]

/-! ### C72: the wall -/

section
variable {d : ℕ} [NeZero d]

/-- Behind a shock the gas moves relative to the shock at least with a fixed multiple of the speed of sound. -/
theorem shock_gap {g rho p a x : ℝ} (h : WaveData g rho p a) (hx : p < x) :
    a * Real.sqrt (8 * (g - 1)) ≤ (g + 1) * (a * Real.sqrt (((g + 1) * (x / p) + (g - 1)) / (2 * g)) - gasWave g rho p a x) := by
  obtain ⟨w, phi, rho', ew, ephi, -, -, hphi, hlt, -, hmom, -⟩ := shock_scalar h hx
  rw [← ew, ← ephi]
  have hg := h.g1; have hr := h.rho0; have hp := h.p0; have ha := h.a0; have hsq := h.sq
  have hgm : 0 < g - 1 := by linarith
  have hr1 : 1 < x / p := (one_lt_div hp).2 hx
  have hD : 0 < (g + 1) * (x / p) + (g - 1) := by nlinarith
  have hw2 : w ^ 2 * (2 * g) = a ^ 2 * ((g + 1) * (x / p) + (g - 1)) := by
    rw [ew, mul_pow, Real.sq_sqrt (by positivity)]; field_simp
  have hw0 : 0 < w := hphi.trans hlt
  have hxp : x = x / p * p := by field_simp
  generalize x / p = r at *
  -- g w phi = (r - 1) a ^ 2
  have hgw : g * (w * phi) = (r - 1) * a ^ 2 := by
    have h1 : rho * (g * (w * phi)) = rho * ((r - 1) * a ^ 2) := by
      have : rho * w * phi = (r - 1) * p := by rw [hmom, hxp]; ring
      linear_combination g * this - (r - 1) * hsq
    exact mul_left_cancel₀ hr.ne' h1
  -- 2 g w (w - phi) = a ^ 2 ((g - 1) r + (g + 1))
  have hk : 2 * g * (w * (w - phi)) = a ^ 2 * ((g - 1) * r + (g + 1)) := by linear_combination hw2 - 2 * hgw
  have hpos : 0 ≤ (g + 1) * (w - phi) := mul_nonneg (by linarith) (by linarith)
  have hsqle : (a * Real.sqrt (8 * (g - 1))) ^ 2 ≤ ((g + 1) * (w - phi)) ^ 2 := by
    rw [mul_pow, Real.sq_sqrt (by linarith)]
    have hw4 : 0 < (2 * g * w) ^ 2 := by positivity
    refine le_of_mul_le_mul_left ?_ hw4
    have e1 : (2 * g * w) ^ 2 * (a ^ 2 * (8 * (g - 1))) = a ^ 4 * (16 * g * (g - 1) * ((g + 1) * r + (g - 1))) := by
      linear_combination (2 * g * a ^ 2 * (8 * (g - 1))) * hw2
    have e2 : (2 * g * w) ^ 2 * ((g + 1) * (w - phi)) ^ 2 = a ^ 4 * ((g + 1) * ((g - 1) * r + (g + 1))) ^ 2 := by
      have : (2 * g * w) ^ 2 * ((g + 1) * (w - phi)) ^ 2 = (g + 1) ^ 2 * (2 * g * (w * (w - phi))) ^ 2 := by ring
      rw [this, hk]; ring
    rw [e1, e2]
    refine mul_le_mul_of_nonneg_left ?_ (by positivity)
    have e3 : ((g + 1) * ((g - 1) * r + (g + 1))) ^ 2 - 16 * g * (g - 1) * ((g + 1) * r + (g - 1)) = ((g - 1) * ((g + 1) * r + (g - 1)) - 4 * g) ^ 2 := by ring
    linarith [sq_nonneg ((g - 1) * ((g + 1) * r + (g - 1)) - 4 * g)]
  exact (pow_le_pow_iff_left₀ (by positivity) hpos two_ne_zero).1 hsqle

/-- The Riemann problem between the mirror image of a state and the state, in the first direction: the velocity between the waves is exactly zero. -/
theorem wall_middle (eq : GasEq) (limit : Int) (s : GasComplete d) (m : ℝ × ℝ)
    (hm : gasMiddle eq limit (gasReflect (unitX d) s) s 0 = some m) : m.2 = 0 := by
  simp only [gasMiddle] at hm
  split at hm
  · cases hm
  · obtain rfl := Option.some.inj hm
    have h0 : (gasReflect (unitX d) s).momentum 0 = -s.momentum 0 := by
      simp [gasReflect, reflectVec, unitX]; ring
    have hd : (gasReflect (unitX d) s).density = s.density := rfl
    have hp : (gasReflect (unitX d) s).pressure = s.pressure := rfl
    have ha : (gasReflect (unitX d) s).speedOfSound = s.speedOfSound := rfl
    simp only [h0, hd, hp, ha]
    ring

/-- The residual of the pressure equation of the wall problem. -/
theorem wall_residual (eq : GasEq) (s : GasComplete d) (x : ℝ) :
    gasExactF eq.gamma 0 (gasReflect (unitX d) s) s x = 2 * (gasWave eq.gamma s.density s.pressure s.speedOfSound x + s.vel 0) := by
  have h0 : (gasReflect (unitX d) s).momentum 0 = -s.momentum 0 := by
    simp [gasReflect, reflectVec, unitX]; ring
  have hd : (gasReflect (unitX d) s).density = s.density := rfl
  have hp : (gasReflect (unitX d) s).pressure = s.pressure := rfl
  have ha : (gasReflect (unitX d) s).speedOfSound = s.speedOfSound := rfl
  simp only [gasExactF, h0, hd, hp, ha, GasComplete.vel]
  ring

/-- The solution at the wall in the frame of the wall. -/
theorem wall_riemann (eq : GasEq) (hv : eq.Valid) (limit : Int) (old s : GasComplete d) (hs : IsGasState eq s) (m : ℝ × ℝ)
    (hm : gasMiddle eq limit (gasReflect (unitX d) s) s 0 = some m) (hp : 0 < m.1)
    (hF : |gasExactF eq.gamma 0 (gasReflect (unitX d) s) s m.1| ≤ 1 / 10 ^ 7)
    (hsmall : 1 / 10 ^ 7 / 2 * (eq.gamma + 1) < s.speedOfSound * min 1 (Real.sqrt (8 * (eq.gamma - 1)))) :
    ∃ q, gasExactSolve eq limit old (gasReflect (unitX d) s) s 0 = some q ∧ IsGasState eq q ∧ q.vel 0 = 0 ∧ (∀ i, i ≠ 0 → q.vel i = s.vel i) ∧
      q.pressure = m.1 := by
  have hu : IsUnit' (unitX d) := by simp [IsUnit', unitX, ite_pow]
  have hr : IsGasState eq (gasReflect (unitX d) s) := (gas_reflect eq (unitX d) hu s).2.2.2.2.2.2.2.1 hs
  have hg := hv.one_lt
  have ha := hs.sound_pos
  have hM := wall_middle eq limit s m hm
  rw [wall_residual] at hF
  have hF' := abs_le.1 hF
  have hone : 1 / 10 ^ 7 / 2 * (eq.gamma + 1) < s.speedOfSound := hsmall.trans_le (by
    have := mul_le_mul_of_nonneg_left (min_le_left 1 (Real.sqrt (8 * (eq.gamma - 1)))) ha.le
    rwa [mul_one] at this)
  have htwo : 1 / 10 ^ 7 / 2 * (eq.gamma + 1) < s.speedOfSound * Real.sqrt (8 * (eq.gamma - 1)) :=
    hsmall.trans_le (mul_le_mul_of_nonneg_left (min_le_right _ _) ha.le)
  obtain ⟨v, vv, vp⟩ := gasInner_valid eq hv 0 (gasReflect (unitX d) s) hr (0 : ℝ) hp
  have hq : gasExactSolve eq limit old (gasReflect (unitX d) s) s 0 = some (gasInner eq 0 (gasReflect (unitX d) s) m.1 0) := by
    have hm' : gasMiddle eq limit (gasReflect (unitX d) s) s 0 = some (m.1, 0) := by rw [hm, ← hM]
    have hd : 0 < (gasReflect (unitX d) s).density ∧ 0 < s.density := ⟨hr.density_pos, hs.density_pos⟩
    have hpp : 0 < (gasReflect (unitX d) s).pressure ∧ 0 < s.pressure := ⟨hr.pressure_pos, hs.pressure_pos⟩
    have hpp3 : 0 < (gasReflect (unitX d) s).pressure ∧ 0 < s.pressure ∧ 0 < m.1 := ⟨hr.pressure_pos, hs.pressure_pos, hp⟩
    have hu0 : (gasReflect (unitX d) s).momentum 0 / (gasReflect (unitX d) s).density = -s.vel 0 := by
      have h0 : (gasReflect (unitX d) s).momentum 0 = -s.momentum 0 := by simp [gasReflect, reflectVec, unitX]; ring
      rw [h0, GasComplete.vel, neg_div]; rfl
    have hpr : (gasReflect (unitX d) s).pressure = s.pressure := rfl
    have har : (gasReflect (unitX d) s).speedOfSound = s.speedOfSound := rfl
    simp only [gasExactSolve, if_pos hd, if_pos hpp, hm', gasExactSample, if_pos hpp3, le_refl, if_true, hu0]
    by_cases hc : s.pressure < m.1
    · have hgap := shock_gap (hs.wave hv) hc
      rw [hpr, har, if_pos hc, if_pos]
      · simp only [gasInner, hpr, if_pos hc]
      · have : (eq.gamma + 1) * (1 / 10 ^ 7 / 2) < (eq.gamma + 1) *
            (s.speedOfSound * Real.sqrt (((eq.gamma + 1) * (m.1 / s.pressure) + (eq.gamma - 1)) / (2 * eq.gamma)) -
              gasWave eq.gamma s.density s.pressure s.speedOfSound m.1) := by
          rw [mul_comm (eq.gamma + 1) (1 / 10 ^ 7 / 2)]; exact htwo.trans_le hgap
        have := lt_of_mul_lt_mul_left this (by linarith)
        linarith [hF'.1]
    · have hle := not_lt.1 hc
      obtain ⟨aM0, aMle, -, -, -, wave⟩ := rar_scalar (hs.wave hv) hp hle
      have hwn : gasWave eq.gamma s.density s.pressure s.speedOfSound m.1 ≤ 0 := by
        rw [wave]
        exact mul_nonpos_of_nonneg_of_nonpos (div_nonneg (by norm_num) (by linarith)) (by linarith)
      have h1 : ¬(0 : ℝ) < -s.vel 0 - s.speedOfSound := by
        have : 1 / 10 ^ 7 / 2 < s.speedOfSound := lt_of_le_of_lt (by nlinarith) hone
        have := hF'.1
        linarith
      rw [hpr, har, if_neg hc, if_neg h1, if_pos (by linarith)]
      simp only [gasInner, hpr, if_neg hc]
  refine ⟨_, hq, v, ?_, fun i hi => ?_, vp⟩
  · rw [vv, if_pos rfl]
  · rw [vv, if_neg hi]
    have : (gasReflect (unitX d) s).momentum i = s.momentum i := by simp [gasReflect, reflectVec, unitX, hi]
    simp only [GasComplete.vel, this]; rfl

theorem dot_rotate (R : Fin d → Fin d → ℝ) (t m : Fin d → ℝ) : ∑ i, t i * rotateVec (fun i j => R j i) m i = ∑ j, rotateVec R t j * m j := by
  simp only [rotateVec, mul_sum, sum_mul]
  rw [sum_comm]
  exact sum_congr rfl fun j _ => sum_congr rfl fun i _ => by ring

theorem dot_rotate_both (R : Fin d → Fin d → ℝ) (hR : IsOrtho R) (t m : Fin d → ℝ) : ∑ j, rotateVec R t j * rotateVec R m j = ∑ i, t i * m i := by
  rw [← dot_rotate]
  have := congrArg GasComplete.momentum (gas_rotate (GasEq.new 1 2) R hR ⟨1, m, 1, 1, 1⟩).1
  simp only [gasRotate] at this
  rw [this]

/-- **C72 (state at the wall).** Let `n` be a unit normal and `s` a thermodynamic state that does not leave the wall so fast that a vacuum appears. If the iteration
limit is large enough, the state at the wall that the cut-cell method computes is a thermodynamic state whose velocity normal to the wall is exactly zero, whose
tangential velocities are those of the cell, and whose pressure solves the wall problem up to the tolerance of the Newton iteration; unless
the assertion fails because an iterate of the pressure is exactly zero. Only speeds of sound below about `1e-7` are excluded. -/
theorem kbn_wall_state (rot : (Fin d → ℝ) → (Fin d → ℝ) → Fin d → Fin d → ℝ) (hrot : IsRotationMaker rot) (eq : GasEq) (hv : eq.Valid) (n : Fin d → ℝ) (hn : IsUnit' n)
    (s : GasComplete d) (hs : IsGasState eq s) (hvac : ∑ i, n i * s.vel i < 2 * s.speedOfSound / (eq.gamma - 1))
    (hsmall : 1 / 10 ^ 7 / 2 * (eq.gamma + 1) < s.speedOfSound * min 1 (Real.sqrt (8 * (eq.gamma - 1)))) :
    ∃ N : ℤ, ∀ limit, N ≤ limit → ∀ old, kbnWallState rot eq limit old n s = none ∨
      ∃ q, kbnWallState rot eq limit old n s = some q ∧ IsGasState eq q ∧ ∑ i, n i * q.momentum i = 0 ∧
        (∀ t : Fin d → ℝ, ∑ i, n i * t i = 0 → ∑ i, t i * q.vel i = ∑ i, t i * s.vel i) ∧
        |gasWave eq.gamma s.density s.pressure s.speedOfSound q.pressure + ∑ i, n i * s.vel i| ≤ 1 / 10 ^ 7 / 2 := by
  have hu : IsUnit' (unitX d) := by simp [IsUnit', unitX, ite_pow]
  obtain ⟨ho, hmap, htr⟩ := hrot n (unitX d) hn hu
  obtain ⟨ho', hmap', -⟩ := hrot (unitX d) n hu hn
  have et : rot (unitX d) n = fun i j => rot n (unitX d) j i := by funext i j; exact htr i j
  generalize hR : rot n (unitX d) = R at *
  have hrow : ∀ j, R 0 j = n j := fun j => by
    have := hmap' j
    simp only [unitX, mul_ite, mul_one, mul_zero, Finset.sum_ite_eq', mem_univ, if_true] at this
    rw [← this, et]
  set s' := gasRotate R s with hs'
  have hvs : IsGasState eq s' := (gas_rotate eq R ho s).2.2.1 hs
  have hvel : ∀ i, s'.vel i = rotateVec R (fun j => s.vel j) i := fun i => by
    simp only [hs', gasRotate, GasComplete.vel, rotateVec, sum_div]
    exact sum_congr rfl fun j _ => by ring
  have hv0 : s'.vel 0 = ∑ i, n i * s.vel i := by rw [hvel]; simp only [rotateVec, hrow]
  have hr : IsGasState eq (gasReflect (unitX d) s') := (gas_reflect eq (unitX d) hu s').2.2.2.2.2.2.2.1 hvs
  have hrv : (gasReflect (unitX d) s').vel 0 = -s'.vel 0 := by
    have h0 : (gasReflect (unitX d) s').momentum 0 = -s'.momentum 0 := by simp [gasReflect, reflectVec, unitX]; ring
    rw [GasComplete.vel, h0, GasComplete.vel, neg_div]; rfl
  have ha' : s'.speedOfSound = s.speedOfSound := rfl
  have hvac' : s'.vel 0 - (gasReflect (unitX d) s').vel 0 < 2 * ((gasReflect (unitX d) s').speedOfSound + s'.speedOfSound) / (eq.gamma - 1) := by
    have e : (gasReflect (unitX d) s').speedOfSound = s.speedOfSound := rfl
    rw [hrv, hv0, e, ha']
    have : 2 * (s.speedOfSound + s.speedOfSound) / (eq.gamma - 1) = 2 * (2 * s.speedOfSound / (eq.gamma - 1)) := by ring
    rw [this]; linarith
  obtain ⟨N, hN⟩ := gas_newton_converges eq hv 0 _ _ hr hvs hvac'
  refine ⟨N, fun limit hlim old => ?_⟩
  obtain ⟨m, hm, hm0, hmF⟩ := hN limit hlim
  have hks : kbnWallState rot eq limit old n s = (gasExactSolve eq limit old (gasReflect (unitX d) s') s' 0).map (gasRotate (rot (unitX d) n)) := by
    simp only [kbnWallState, hR, ← hs']
  rcases hm0.lt_or_eq with hmp | hmz
  · right
    have hF : |gasExactF eq.gamma 0 (gasReflect (unitX d) s') s' m.1| ≤ 1 / 10 ^ 7 := hmF.resolve_right hmp.ne'
    obtain ⟨q, hq, qv, q0, qt, qp⟩ := wall_riemann eq hv limit old s' hvs m hm hmp hF hsmall
    refine ⟨gasRotate (rot (unitX d) n) q, by rw [hks, hq]; rfl, (gas_rotate eq _ ho' q).2.2.1 qv, ?_, fun t ht => ?_, ?_⟩
    · rw [et]
      simp only [gasRotate]
      rw [dot_rotate]
      have e : rotateVec R n = unitX d := by funext i; exact hmap i
      rw [e]
      have : q.momentum 0 = 0 := by
        have := q0; rw [GasComplete.vel, div_eq_zero_iff] at this
        exact this.resolve_right qv.density_pos.ne'
      simp [unitX, this]
    · have hz : rotateVec R t 0 = 0 := by simp only [rotateVec, hrow]; exact ht
      have e1 : ∀ i, (gasRotate (rot (unitX d) n) q).vel i = rotateVec (fun i j => R j i) (fun j => q.vel j) i := fun i => by
        rw [et]
        simp only [gasRotate, GasComplete.vel, rotateVec, sum_div]
        exact sum_congr rfl fun j _ => by ring
      simp only [e1]
      rw [dot_rotate, ← dot_rotate_both R ho t fun j => s.vel j]
      refine sum_congr rfl fun j _ => ?_
      by_cases hj : j = 0
      · rw [hj, hz]; ring
      · rw [qt j hj, hvel]
    · have e : (gasRotate (rot (unitX d) n) q).pressure = m.1 := qp
      rw [wall_residual, hv0, abs_mul, abs_two] at hF
      have e2 : s'.density = s.density ∧ s'.pressure = s.pressure := ⟨rfl, rfl⟩
      rw [e2.1, e2.2, ha'] at hF
      rw [e]; linarith
  · left
    have hd : 0 < (gasReflect (unitX d) s').density ∧ 0 < s'.density := ⟨hr.density_pos, hvs.density_pos⟩
    have hpp : 0 < (gasReflect (unitX d) s').pressure ∧ 0 < s'.pressure := ⟨hr.pressure_pos, hvs.pressure_pos⟩
    have hno : ¬(0 < (gasReflect (unitX d) s').pressure ∧ 0 < s'.pressure ∧ 0 < m.1) := fun h => by rw [← hmz] at h; exact lt_irrefl _ h.2.2
    rw [hks]
    simp only [gasExactSolve, if_pos hd, if_pos hpp, hm, gasExactSample, if_neg hno]
    rfl

/-- **C72 (no flow through the wall).** Let the momentum of the reference state be tangential to the wall, which is what `kbn_wall_state` shows. Then the boundary fluxes of
the directions, weighted with the normal, carry no mass and no energy, and the momentum they carry is a pressure along the normal: the wall exerts only pressure.
This holds whichever states, mirror states and masks the directions use. -/
theorem kbn_boundary_flux (rot : (Fin d → ℝ) → (Fin d → ℝ) → Fin d → Fin d → ℝ) (eq : GasEq) (limit : Int) (old : GasComplete d) (state mirror : Fin d → GasComplete d)
    (reference : GasComplete d) (n : Fin d → ℝ) (mask : Fin d → Bool) (hnm : ∑ i, n i * reference.momentum i = 0) (flux : Fin d → GasCons d)
    (hf : ∀ dir, kbnBoundaryFlux rot eq limit old (state dir) reference (mirror dir) n (mask dir) dir = some (flux dir)) :
    ∑ dir, n dir * (flux dir).density = 0 ∧ ∑ dir, n dir * (flux dir).energy = 0 ∧
    ∃ p : Fin d → ℝ, ∀ i, ∑ dir, n dir * (flux dir).momentum i = n i * p i := by
  have key : ∀ dir, ∃ p : ℝ, flux dir = ⟨reference.momentum dir, fun i => reference.momentum dir / reference.density * reference.momentum i + (if i = dir then p else 0),
      reference.momentum dir / reference.density * (reference.energy + reference.pressure)⟩ := by
    intro dir
    have h := hf dir
    simp only [kbnBoundaryFlux] at h
    split at h
    · cases h
    · rename_i fl hfl
      split at h
      · cases h
      · rename_i sol hsol
        refine ⟨sol.pressure, ?_⟩
        rw [← Option.some.inj h]
        unfold gasFlux at hfl
        split at hfl
        · rw [← Option.some.inj hfl]
          simp only [GasCons.mk.injEq, true_and, and_true]
          funext i
          split_ifs <;> ring
        · cases hfl
  choose p hp using key
  refine ⟨?_, ?_, p, fun i => ?_⟩
  · simp only [hp]; exact hnm
  · simp only [hp]
    have : ∀ x, n x * (reference.momentum x / reference.density * (reference.energy + reference.pressure)) =
        n x * reference.momentum x * ((reference.energy + reference.pressure) / reference.density) := fun x => by ring
    rw [sum_congr rfl fun x _ => this x, ← sum_mul, hnm, zero_mul]
  · simp only [hp, mul_add, sum_add_distrib]
    have : ∀ x, n x * (reference.momentum x / reference.density * reference.momentum i) = n x * reference.momentum x * (reference.momentum i / reference.density) := fun x => by ring
    rw [sum_congr rfl fun x _ => this x, ← sum_mul, hnm, zero_mul, zero_add]
    simp

/-- **C72 (balance of a cell).** If the wall areas of a cell in the directions are proportional to the normal, as for a cell with a plane wall and no doubly shielded faces,
then the sweeps of one step with the same `dt / dx` exchange no mass and no energy with the wall. -/
theorem kbn_wall_exchange (rot : (Fin d → ℝ) → (Fin d → ℝ) → Fin d → Fin d → ℝ) (eq : GasEq) (limit : Int) (old : GasComplete d) (state mirror : Fin d → GasComplete d)
    (reference : GasComplete d) (n : Fin d → ℝ) (mask : Fin d → Bool) (hnm : ∑ i, n i * reference.momentum i = 0) (flux : Fin d → GasCons d)
    (hf : ∀ dir, kbnBoundaryFlux rot eq limit old (state dir) reference (mirror dir) n (mask dir) dir = some (flux dir))
    (lam A : ℝ) (area : Fin d → ℝ) (hA : ∀ dir, area dir = A * n dir) :
    ∑ dir, lam * (area dir * (flux dir).density) = 0 ∧ ∑ dir, lam * (area dir * (flux dir).energy) = 0 := by
  obtain ⟨h1, h2, -⟩ := kbn_boundary_flux rot eq limit old state mirror reference n mask hnm flux hf
  constructor
  · have : ∀ x, lam * (area x * (flux x).density) = lam * A * (n x * (flux x).density) := fun x => by rw [hA]; ring
    rw [sum_congr rfl fun x _ => this x, ← mul_sum, h1, mul_zero]
  · have : ∀ x, lam * (area x * (flux x).energy) = lam * A * (n x * (flux x).energy) := fun x => by rw [hA]; ring
    rw [sum_congr rfl fun x _ => this x, ← mul_sum, h2, mul_zero]

/-- A cell at rest against the wall keeps its state at the wall. -/
theorem kbn_wall_rest (rot : (Fin d → ℝ) → (Fin d → ℝ) → Fin d → Fin d → ℝ) (hrot : IsRotationMaker rot) (eq : GasEq) (hv : eq.Valid) (limit : Int)
    (n : Fin d → ℝ) (hn : IsUnit' n) (old s : GasComplete d) (hs : IsGasState eq s) (h0 : ∑ i, n i * s.momentum i = 0) :
    kbnWallState rot eq limit old n s = some s := by
  have hu : IsUnit' (unitX d) := by simp [IsUnit', unitX, ite_pow]
  obtain ⟨ho, hmap, htr⟩ := hrot n (unitX d) hn hu
  obtain ⟨ho', hmap', -⟩ := hrot (unitX d) n hu hn
  have et : rot (unitX d) n = fun i j => rot n (unitX d) j i := by funext i j; exact htr i j
  have hz : (gasRotate (rot n (unitX d)) s).momentum 0 = 0 := by
    have hrow : ∀ j, rot n (unitX d) 0 j = n j := fun j => by
      have := hmap' j
      simp only [unitX, mul_ite, mul_one, mul_zero, Finset.sum_ite_eq', mem_univ, if_true] at this
      rw [← this, et]
    simp only [gasRotate, rotateVec, hrow]; exact h0
  have hrefl : gasReflect (unitX d) (gasRotate (rot n (unitX d)) s) = gasRotate (rot n (unitX d)) s := by
    unfold gasReflect
    have : reflectVec (unitX d) (gasRotate (rot n (unitX d)) s).momentum = (gasRotate (rot n (unitX d)) s).momentum := by
      funext i
      simp only [reflectVec, unitX, mul_ite, mul_one, mul_zero, Finset.sum_ite_eq', mem_univ, if_true, hz]
      split_ifs <;> ring
    rw [this]
  unfold kbnWallState
  simp only
  rw [hrefl, (gas_exact_consistent eq hv 0 old _ ((gas_rotate eq _ ho s).2.2.1 hs) limit).2.1]
  simp only [Option.map_some]
  rw [et]
  exact congrArg some (gas_rotate eq _ ho s).1

end

/-- Density 2, pressure 1, speed of sound 1, velocity `(u, v)`. -/
noncomputable def exWall (u v : ℝ) : GasComplete 2 := ⟨2, ![2 * u, 2 * v], 1 + u ^ 2 + v ^ 2, 1, 1⟩

theorem exWall_state (u v : ℝ) : IsGasState exampleGas2 (exWall u v) :=
  ⟨by norm_num [exWall], by norm_num [exWall], by simp [exWall, exampleGas2, Fin.sum_univ_two]; ring, by norm_num [exWall], by norm_num [exWall, exampleGas2]⟩

/-- The hypotheses of `kbn_wall_state` are met by a flow that hits an inclined wall with Mach number 3 and by one that leaves it. -/
example (w : ℝ) (hw : w = 3 ∨ w = -1) : IsUnit' ![3 / 5, 4 / 5] ∧ IsGasState exampleGas2 (exWall (-w) 0) ∧
    ∑ i, ![3 / 5, 4 / 5] i * (exWall (-w) 0).vel i < 2 * (exWall (-w) 0).speedOfSound / (exampleGas2.gamma - 1) ∧
    1 / 10 ^ 7 / 2 * (exampleGas2.gamma + 1) < (exWall (-w) 0).speedOfSound * min 1 (Real.sqrt (8 * (exampleGas2.gamma - 1))) := by
  refine ⟨by norm_num [IsUnit', Fin.sum_univ_two], exWall_state _ _, ?_, ?_⟩
  · rcases hw with rfl | rfl <;> norm_num [exWall, exampleGas2, GasComplete.vel, Fin.sum_univ_two]
  · have : 1 ≤ Real.sqrt (8 * (exampleGas2.gamma - 1)) := by
      rw [Real.one_le_sqrt]; norm_num [exampleGas2]
    rw [min_eq_left this]; norm_num [exWall, exampleGas2]

/-- The hypotheses of `kbn_boundary_flux` are met: a flow along an inclined wall, where the boundary fluxes of both directions do carry mass. -/
example (limit : Int) (old : GasComplete 2) : ∃ flux : Fin 2 → GasCons 2, (∑ i, ![3 / 5, 4 / 5] i * (exWall 4 (-3)).momentum i = 0) ∧
    (∀ dir, kbnBoundaryFlux makeRotation2 exampleGas2 limit old (exWall 4 (-3)) (exWall 4 (-3)) (exWall 0 0) ![3 / 5, 4 / 5] false dir = some (flux dir)) ∧
    (flux 0).density = 8 ∧ (flux 1).density = -6 := by
  have h0 : ∑ i, ![3 / 5, 4 / 5] i * (exWall 4 (-3)).momentum i = 0 := by norm_num [exWall, Fin.sum_univ_two]
  have hn : IsUnit' ![3 / 5, 4 / 5] := by norm_num [IsUnit', Fin.sum_univ_two]
  have hw := kbn_wall_rest makeRotation2 make_rotation2 exampleGas2 exampleGas2_valid limit _ hn old (exWall 4 (-3)) (exWall_state _ _) h0
  have hd : 0 < (exWall 4 (-3)).density := by norm_num [exWall]
  refine ⟨fun dir => ⟨(exWall 4 (-3)).momentum dir, fun i => (exWall 4 (-3)).momentum dir / 2 * (exWall 4 (-3)).momentum i + (if i = dir then 1 else 0),
    (exWall 4 (-3)).momentum dir / 2 * ((exWall 4 (-3)).energy + 1)⟩, h0, fun dir => ?_, ?_, ?_⟩
  · simp only [kbnBoundaryFlux, gasFlux, if_pos hd, hw, Bool.false_eq_true, if_false]
    simp [exWall]
  · norm_num [exWall]
  · norm_num [exWall]

/-- **C72 is false next to doubly shielded faces.** The wall cuts the upper left corner of the cell, from the middle of its left face to the middle of its upper face; the
cell is planar in both directions with the same volume. Its right face is larger than both neighbours. For a flow along the wall the differences of the faces weighted with the
mass fluxes cancel, but the areas with which the code updates the cell (`cut_cell_balance`) do not: mass flows through the wall. -/
theorem kbn_wall_exchange_wrong : ∃ betaX betaY : Int → ℝ, ∃ alpha cX cY : ℝ, ∃ q : GasComplete 2,
    IsPlanarCell (betaX 0) (betaX 1) alpha cX ∧ IsPlanarCell (betaY 0) (betaY 1) alpha cY ∧ IsDoublyShielded betaX 1 ∧
    (betaX 0 - betaX 1) * q.momentum 0 + (betaY 0 - betaY 1) * q.momentum 1 = 0 ∧ IsGasState exampleGas2 q ∧
    wallArea betaX 0 * q.momentum 0 + wallArea betaY 0 * q.momentum 1 ≠ 0 := by
  refine ⟨fun k => if k = 1 then 1 else 1 / 2, fun k => if k ≤ 0 then 1 else 1 / 2, 7 / 8, -(1 / 4), 1 / 4, exWall 1 1, ?_, ?_, ?_, ?_, exWall_state _ _, ?_⟩
  · constructor <;> norm_num
  · constructor <;> norm_num
  · constructor <;> norm_num
  · norm_num [exWall]
  · norm_num [wallArea, exWall]

end Fub
