import Verif.Model.TurbineBoundary
import Verif.Props.GasMix
import Verif.Props.Gas

/-! Properties of the boundary conditions at the turbine plenum (C78), at an outlet with given pressure (C79) and for a given Mach number (C80). -/

namespace Fub
open Finset
variable {d s t : ℕ}

/-! ### The turbine plenum -/

/-- A conservative state whose energy is that of the pressure `P` is completed. -/
theorem mixComplete_of_energy (eq : MixEq) (h : eq.Valid) (u : MixCons d s t) (P : ℝ) (hr : 0 < u.density) (hP : 0 < P)
    (he : u.energy = P / (eq.gamma - 1) + eq.Msq * ((∑ i, u.momentum i ^ 2) / (2 * u.density))) :
    ∃ q', mixComplete eq u = some q' ∧ q'.toMixCons = u ∧ q'.pressure = P ∧ IsMixState eq q' := by
  obtain ⟨g0, g1, g2⟩ := h.pos
  have hs := sqrt_sound g0 hP hr
  let q' : MixComplete d s t := { u with pressure := P, speedOfSound := Real.sqrt (eq.gamma * P / u.density) }
  have hq : IsMixState eq q' := ⟨hr, hP, he, hs.1, hs.2⟩
  exact ⟨q', (mix_cons_roundtrip eq h q' hq).1, rfl, rfl, hq⟩

/-- The total enthalpy in one dimension. -/
theorem totalEnthalpy_one {eq : MixEq} {q : MixComplete 0 s t} (hg : 1 < eq.gamma) (hM : eq.Msq = 1) (hq : IsMixState eq q) :
    q.totalEnthalpy = eq.gamma / (eq.gamma - 1) * (q.pressure / q.density) + (q.momentum 0 / q.density) ^ 2 / 2 := by
  rw [totalEnthalpy_eq hg hM hq]
  congr 2
  exact Fin.sum_univ_one _

/-- Powers of the pressure ratio: the ratio of densities is positive, the ratio of temperatures is the power with exponent `(γ - 1) / γ`. -/
theorem ratio_aux {g x : ℝ} (hg : 1 < g) (hx : 0 < x) :
    0 < x ^ (1 / g) ∧ (x ^ (1 / g)) ^ g = x ∧ x / x ^ (1 / g) = x ^ ((g - 1) / g) := by
  have g0 : 0 < g := by linarith
  refine ⟨Real.rpow_pos_of_pos hx _, ?_, ?_⟩
  · rw [← Real.rpow_mul hx.le, one_div_mul_cancel g0.ne', Real.rpow_one]
  · rw [show (g - 1) / g = 1 - 1 / g by field_simp, Real.rpow_sub hx, Real.rpow_one]

/-- **C78, what holds.** For every gas without Mach number scaling, state of the tube and plenum with positive pressure and temperature the ghost state is a state of the gas with the mass fractions of the tube. If the plenum
pressure is higher and the flow is not towards the plenum, gas streams into the tube: the ghost state has the pressure of the tube, the entropy of the plenum and a velocity into the tube. Otherwise it has the pressure of the
plenum and the entropy of the tube; the gas of a flow against a higher pressure is decelerated with constant total enthalpy, or stopped if this is not possible, other outflow keeps its velocity and there is no inflow. -/
theorem turbine_ghost_partial (eq : MixEq) (h : eq.Valid) (hM : eq.Msq = 1) (q : MixComplete 0 s t) (hq : IsMixState eq q) (pf Tf : ℝ) (hp : 0 < pf) (hT : 0 < Tf) :
    ∃ q', turbineGhost eq pf Tf q = some q' ∧ IsMixState eq q' ∧ (∀ i, q'.species i / q'.density = q.species i / q.density) ∧
    let u := q.momentum 0 / q.density
    let u' := q'.momentum 0 / q'.density
    (q.pressure < pf → u ≤ 0 → q'.pressure = q.pressure ∧ q'.pressure * (pf / Tf) ^ eq.gamma = pf * q'.density ^ eq.gamma ∧ u' < 0 ∧
      u' ^ 2 / 2 = eq.gamma / (eq.gamma - 1) * (q.pressure / q.density) * ((pf / q.pressure) ^ ((eq.gamma - 1) / eq.gamma) - 1)) ∧
    (¬ (q.pressure < pf ∧ u ≤ 0) → q'.pressure = pf ∧ q'.pressure * q.density ^ eq.gamma = q.pressure * q'.density ^ eq.gamma ∧ 0 ≤ u') ∧
    (q.pressure < pf → 0 < u → q'.totalEnthalpy = q.totalEnthalpy ∨ (u' = 0 ∧ q.totalEnthalpy ≤ q'.totalEnthalpy)) ∧
    (pf ≤ q.pressure → u' = max u 0) := by
  obtain ⟨g0, g1, g2⟩ := h.pos
  have hr := hq.density_pos
  have hpq := hq.pressure_pos
  have hx : 0 < pf / q.pressure := div_pos hp hpq
  obtain ⟨r0, r1, r2⟩ := ratio_aux h.one_lt hx
  have hH := fun (q' : MixComplete 0 s t) hq' => totalEnthalpy_one (eq := eq) (q := q') h.one_lt hM hq'
  unfold turbineGhost
  simp only [hM, h.inv, h.over, h.minusOneInv, div_one, mul_one]
  rw [r2]
  generalize hR : (pf / q.pressure) ^ (1 / eq.gamma) = R at *
  generalize hTr : (pf / q.pressure) ^ ((eq.gamma - 1) / eq.gamma) = X at *
  have hpR : pf = q.pressure * (R * X) := by rw [← r2]; field_simp
  -- entropy of a state with density `ρ R` and pressure `pf`
  have hent : pf * q.density ^ eq.gamma = q.pressure * (q.density * R) ^ eq.gamma := by
    rw [Real.mul_rpow hr.le r0.le, r1]; field_simp
  by_cases hc : q.pressure < pf
  · have hX : 1 < X := by
      rw [← hTr]
      exact Real.one_lt_rpow ((one_lt_div hpq).2 hc) (div_pos g1 g0)
    by_cases hu : q.momentum 0 / q.density ≤ 0
    · simp only [if_pos hc, if_pos hu]
      have hv : 0 < 2 * (eq.gamma / (eq.gamma - 1)) * (X - 1) * (q.pressure / q.density) := by
        have : 0 < X - 1 := by linarith
        positivity
      rw [max_eq_right hv.le]
      generalize hV : 2 * (eq.gamma / (eq.gamma - 1)) * (X - 1) * (q.pressure / q.density) = V at *
      have hsq := Real.mul_self_sqrt hv.le
      have hs0 := Real.sqrt_pos.2 hv
      generalize Real.sqrt V = w at *
      have hro : 0 < pf / Tf / R := by positivity
      generalize hro' : pf / Tf / R = ro at *
      obtain ⟨q', e1, e2, e3, e4⟩ := mixComplete_of_energy eq h (⟨ro, fun _ => -w * ro, q.pressure * (1 / (eq.gamma - 1)) + 1 / 2 * ro * (-w * -w), fun i => q.species i * ro / q.density, q.scalars⟩ : MixCons 0 s t)
        q.pressure hro hpq (by simp [hM]; field_simp)
      have f1 : q'.density = ro := by rw [e2]
      have f2 : q'.momentum 0 = -w * ro := by rw [e2]
      have f3 : ∀ i, q'.species i = q.species i * ro / q.density := by intro i; rw [e2]
      have f4 : q'.momentum 0 / q'.density = -w := by rw [f1, f2]; field_simp
      refine ⟨q', e1, e4, fun i => by rw [f3, f1]; field_simp, fun _ _ => ⟨e3, ?_, by rw [f4]; linarith, ?_⟩, fun hn => absurd ⟨hc, hu⟩ hn, fun _ h0 => absurd hu (not_le.2 h0), fun h0 => absurd hc (not_lt.2 h0)⟩
      · rw [e3, f1, ← hro', Real.div_rpow (by positivity) r0.le, r1]; field_simp
      · rw [f4, neg_sq, sq, hsq, ← hV]; ring
    · simp only [if_pos hc, if_neg hu]
      push Not at hu
      generalize hV : 2 * (eq.gamma / (eq.gamma - 1)) * (X - 1) * (q.pressure / q.density) = V at *
      generalize huq : q.momentum 0 / q.density = u at *
      have hsq := Real.mul_self_sqrt (le_max_left 0 (u * u - V))
      have hs0 := Real.sqrt_nonneg (max 0 (u * u - V))
      have hs1 : u * u - V ≤ 0 → Real.sqrt (max 0 (u * u - V)) = 0 := fun hle => by rw [max_eq_left hle, Real.sqrt_zero]
      generalize Real.sqrt (max 0 (u * u - V)) = w at *
      have hro : 0 < q.density * R := by positivity
      obtain ⟨q', e1, e2, e3, e4⟩ := mixComplete_of_energy eq h (⟨q.density * R, fun _ => w * (q.density * R), pf * (1 / (eq.gamma - 1)) + 1 / 2 * (q.density * R) * (w * w), fun i => q.species i * R, q.scalars⟩ : MixCons 0 s t)
        pf hro hp (by simp [hM]; field_simp)
      have f1 : q'.density = q.density * R := by rw [e2]
      have f2 : q'.momentum 0 = w * (q.density * R) := by rw [e2]
      have f3 : ∀ i, q'.species i = q.species i * R := by intro i; rw [e2]
      have f4 : q'.momentum 0 / q'.density = w := by rw [f1, f2]; field_simp
      refine ⟨q', e1, e4, fun i => by rw [f3, f1]; field_simp, fun _ h0 => absurd hu (not_lt.2 h0), fun _ => ⟨e3, by rw [e3, f1]; exact hent, by rw [f4]; exact hs0⟩, fun _ _ => ?_, fun h0 => absurd hc (not_lt.2 h0)⟩
      have h1 := hH q hq
      have h2 := hH q' e4
      rw [huq] at h1
      rw [f4, e3, f1] at h2
      have hpx : pf / (q.density * R) = q.pressure / q.density * X := by rw [hpR]; field_simp
      rw [hpx] at h2
      have hVV : eq.gamma / (eq.gamma - 1) * (q.pressure / q.density * X) = eq.gamma / (eq.gamma - 1) * (q.pressure / q.density) + V / 2 := by rw [← hV]; ring
      rw [hVV] at h2
      rcases le_total (u * u - V) 0 with hle | hle
      · right
        rw [f4, h1, h2, hs1 hle]
        exact ⟨rfl, by nlinarith⟩
      · left
        rw [max_eq_right hle] at hsq
        rw [h1, h2]; nlinarith
  · simp only [if_neg hc]
    push Not at hc
    have hro : 0 < q.density * R := by positivity
    by_cases hu : q.momentum 0 / q.density ≤ 0
    · simp only [if_pos hu]
      obtain ⟨q', e1, e2, e3, e4⟩ := mixComplete_of_energy eq h (⟨q.density * R, fun _ => 0, pf * (1 / (eq.gamma - 1)) +
          (1 / 2 * q.density * (q.momentum 0 / q.density * (q.momentum 0 / q.density)) - 1 / 2 * q.density * (q.momentum 0 / q.density) * (q.momentum 0 / q.density)) * R,
          fun i => q.species i * R, q.scalars⟩ : MixCons 0 s t)
        pf hro hp (by simp only [hM, sum_const]; simp; ring)
      have f1 : q'.density = q.density * R := by rw [e2]
      have f2 : q'.momentum 0 = 0 := by rw [e2]
      have f3 : ∀ i, q'.species i = q.species i * R := by intro i; rw [e2]
      refine ⟨q', e1, e4, fun i => by rw [f3, f1]; field_simp, fun h0 => absurd hc (not_le.2 h0), fun _ => ⟨e3, by rw [e3, f1]; exact hent, by rw [f2]; simp⟩, fun h0 => absurd hc (not_le.2 h0), fun _ => ?_⟩
      rw [f2, zero_div, max_eq_right hu]
    · simp only [if_neg hu]
      push Not at hu
      obtain ⟨q', e1, e2, e3, e4⟩ := mixComplete_of_energy eq h (⟨q.density * R, fun i => q.momentum i * R, pf * (1 / (eq.gamma - 1)) +
          1 / 2 * q.density * (q.momentum 0 / q.density * (q.momentum 0 / q.density)) * R,
          fun i => q.species i * R, q.scalars⟩ : MixCons 0 s t)
        pf hro hp (by simp [hM]; field_simp)
      have f1 : q'.density = q.density * R := by rw [e2]
      have f2 : q'.momentum 0 = q.momentum 0 * R := by rw [e2]
      have f3 : ∀ i, q'.species i = q.species i * R := by intro i; rw [e2]
      have f4 : q'.momentum 0 / q'.density = q.momentum 0 / q.density := by rw [f1, f2]; field_simp
      refine ⟨q', e1, e4, fun i => by rw [f3, f1]; field_simp, fun h0 => absurd hc (not_le.2 h0), fun _ => ⟨e3, by rw [e3, f1]; exact hent, by rw [f4]; exact hu.le⟩, fun h0 => absurd hc (not_le.2 h0), fun _ => ?_⟩
      rw [f4, max_eq_left hu.le]

/-- **C78 is false for the passive scalars.** They are copied although the density changes: for every outflow with another pressure the concentration of a scalar that is there changes. -/
theorem turbine_ghost_scalars (eq : MixEq) (h : eq.Valid) (hM : eq.Msq = 1) (q q' : MixComplete 0 s t) (hq : IsMixState eq q) (pf Tf : ℝ) (hp : 0 < pf) (hT : 0 < Tf)
    (hu : 0 < q.momentum 0) (hne : pf ≠ q.pressure) (i : Fin t) (hi : q.scalars i ≠ 0) (hq' : turbineGhost eq pf Tf q = some q') :
    q'.scalars i / q'.density ≠ q.scalars i / q.density := by
  obtain ⟨q1, e1, e2, -, -, e3, -⟩ := turbine_ghost_partial eq h hM q hq pf Tf hp hT
  obtain rfl : q1 = q' := by rw [e1] at hq'; exact Option.some.inj hq'
  have hr := hq.density_pos
  have hu' : ¬ q.momentum 0 / q.density ≤ 0 := not_le.2 (div_pos hu hr)
  obtain ⟨h1, h2, -⟩ := e3 (fun hh => hu' hh.2)
  have hs : q1.scalars = q.scalars := by
    unfold turbineGhost mixComplete at hq'
    simp only [if_neg hu', Option.ite_none_right_eq_some] at hq'
    obtain ⟨-, -, hq'⟩ := hq'
    rw [← Option.some.inj hq']
    simp only
    split_ifs <;> rfl
  intro hc
  rw [hs] at hc
  have hd : q1.density = q.density := by
    have := e2.density_pos
    field_simp at hc
    exact hc.symm
  rw [h1, hd] at h2
  exact hne (mul_right_cancel₀ (Real.rpow_pos_of_pos hr _).ne' h2)

/-- **C78 is false for the total enthalpy of the inflow.** The velocity is computed with the temperature of the tube instead of that of the expanded gas: the ghost state has the total enthalpy of the gas in the plenum only if
the expanded gas happens to have the temperature of the tube. -/
theorem turbine_ghost_enthalpy (eq : MixEq) (h : eq.Valid) (hM : eq.Msq = 1) (q q' : MixComplete 0 s t) (hq : IsMixState eq q) (pf Tf : ℝ) (hT : 0 < Tf)
    (hp : q.pressure < pf) (hu : q.momentum 0 ≤ 0) (hq' : turbineGhost eq pf Tf q = some q') :
    q'.totalEnthalpy - eq.gamma / (eq.gamma - 1) * Tf =
      eq.gamma / (eq.gamma - 1) * ((pf / q.pressure) ^ ((eq.gamma - 1) / eq.gamma) - 1) * (q.pressure / q.density - q'.pressure / q'.density) ∧
    (q'.totalEnthalpy = eq.gamma / (eq.gamma - 1) * Tf ↔ q.pressure / q.density = q'.pressure / q'.density) := by
  obtain ⟨g0, g1, g2⟩ := h.pos
  have hpq := hq.pressure_pos
  have hp0 : 0 < pf := hpq.trans hp
  obtain ⟨q1, e1, e2, -, e3, -⟩ := turbine_ghost_partial eq h hM q hq pf Tf hp0 hT
  obtain rfl : q1 = q' := by rw [e1] at hq'; exact Option.some.inj hq'
  have hr := hq.density_pos
  have hr' := e2.density_pos
  have hp' := e2.pressure_pos
  have hx : 0 < pf / q.pressure := div_pos hp0 hpq
  obtain ⟨r0, r1, r2⟩ := ratio_aux h.one_lt hx
  obtain ⟨h1, h2, -, h3⟩ := e3 hp (div_nonpos_of_nonpos_of_nonneg hu hr.le)
  have hX : 1 < (pf / q.pressure) ^ ((eq.gamma - 1) / eq.gamma) := Real.one_lt_rpow ((one_lt_div hpq).2 hp) (div_pos g1 g0)
  -- the density of the ghost state
  have hd : q1.density = pf / Tf / (pf / q.pressure) ^ (1 / eq.gamma) := by
    have a1 : q1.density ^ eq.gamma = (pf / Tf / (pf / q.pressure) ^ (1 / eq.gamma)) ^ eq.gamma := by
      rw [Real.div_rpow (by positivity) r0.le, r1]
      rw [h1] at h2
      field_simp
      linarith
    exact (Real.rpow_left_inj hr'.le (by positivity) g0.ne').1 a1
  have hTf : Tf = q1.pressure / q1.density * (pf / q.pressure) ^ ((eq.gamma - 1) / eq.gamma) := by
    rw [hd, h1, ← r2]
    field_simp
  have hE := totalEnthalpy_one (eq := eq) (q := q1) h.one_lt hM e2
  rw [h3] at hE
  have key : q1.totalEnthalpy - eq.gamma / (eq.gamma - 1) * Tf =
      eq.gamma / (eq.gamma - 1) * ((pf / q.pressure) ^ ((eq.gamma - 1) / eq.gamma) - 1) * (q.pressure / q.density - q1.pressure / q1.density) := by
    rw [hE]
    generalize (pf / q.pressure) ^ ((eq.gamma - 1) / eq.gamma) = X at *
    rw [hTf]
    ring
  refine ⟨key, ?_⟩
  rw [← sub_eq_zero, key, mul_eq_zero, mul_eq_zero, sub_eq_zero (b := q1.pressure / q1.density)]
  constructor
  · rintro ((h0 | h0) | h0)
    · exact absurd h0 (by positivity)
    · linarith
    · exact h0
  · intro h0; exact Or.inr h0

/-- **C78, expanding outflow loses total enthalpy.** For a flow into a plenum with lower pressure the velocity is kept although the gas expands. -/
theorem turbine_ghost_expanding (eq : MixEq) (h : eq.Valid) (hM : eq.Msq = 1) (q q' : MixComplete 0 s t) (hq : IsMixState eq q) (pf Tf : ℝ) (hp0 : 0 < pf) (hT : 0 < Tf)
    (hp : pf < q.pressure) (hu : 0 < q.momentum 0) (hq' : turbineGhost eq pf Tf q = some q') : q'.totalEnthalpy < q.totalEnthalpy := by
  obtain ⟨g0, g1, g2⟩ := h.pos
  have hpq := hq.pressure_pos
  have hr := hq.density_pos
  obtain ⟨q1, e1, e2, -, -, e3, -, e4⟩ := turbine_ghost_partial eq h hM q hq pf Tf hp0 hT
  obtain rfl : q1 = q' := by rw [e1] at hq'; exact Option.some.inj hq'
  have hr' := e2.density_pos
  obtain ⟨h1, h2, -⟩ := e3 (fun hh => absurd hp (not_lt.2 hh.1.le))
  have hv := e4 hp.le
  rw [max_eq_left (div_pos hu hr).le] at hv
  have hE := totalEnthalpy_one (eq := eq) (q := q1) h.one_lt hM e2
  have hE0 := totalEnthalpy_one (eq := eq) (q := q) h.one_lt hM hq
  rw [hE, hE0, hv]
  have hx : 0 < pf / q.pressure := div_pos hp0 hpq
  obtain ⟨r0, r1, r2⟩ := ratio_aux h.one_lt hx
  have hd : q1.density = q.density * (pf / q.pressure) ^ (1 / eq.gamma) := by
    have a1 : q1.density ^ eq.gamma = (q.density * (pf / q.pressure) ^ (1 / eq.gamma)) ^ eq.gamma := by
      rw [Real.mul_rpow hr.le r0.le, r1]
      rw [h1] at h2
      field_simp
      linarith
    exact (Real.rpow_left_inj hr'.le (by positivity) g0.ne').1 a1
  have hX : (pf / q.pressure) ^ ((eq.gamma - 1) / eq.gamma) < 1 := Real.rpow_lt_one hx.le ((div_lt_one hpq).2 hp) (div_pos g1 g0)
  have : q1.pressure / q1.density = q.pressure / q.density * (pf / q.pressure) ^ ((eq.gamma - 1) / eq.gamma) := by
    rw [h1, hd, ← r2]; field_simp
  rw [this]
  have hc : 0 < eq.gamma / (eq.gamma - 1) * (q.pressure / q.density) := by positivity
  nlinarith

/-- A gas in a tube for the examples. -/
noncomputable def exTube (u : ℝ) : MixComplete 0 1 1 := mixFromPrim (computeConstants 287 (7 / 5)) ⟨2, fun _ => u, 3, fun _ => 1 / 2, fun _ => 1⟩

theorem exTube_state (u : ℝ) : IsMixState (computeConstants 287 (7 / 5)) (exTube u) :=
  (mix_prim_roundtrip _ (computeConstants_valid 287 (7 / 5) (by norm_num) (by norm_num)).1 _ (by norm_num) (by norm_num)).1

/-- The hypotheses are met: inflow and outflow for a plenum with a higher and with a lower pressure. -/
example : ∃ q', turbineGhost (computeConstants 287 (7 / 5)) 5 2 (exTube (-1)) = some q' ∧ q'.pressure = 3 ∧ q'.momentum 0 / q'.density < 0 := by
  obtain ⟨hv, hM⟩ := computeConstants_valid 287 (7 / 5) (by norm_num) (by norm_num)
  obtain ⟨q', h1, h2, h3, h4, -⟩ := turbine_ghost_partial _ hv hM (exTube (-1)) (exTube_state _) 5 2 (by norm_num) (by norm_num)
  obtain ⟨a, -, b, -⟩ := h4 (by norm_num [exTube, mixFromPrim]) (by norm_num [exTube, mixFromPrim])
  exact ⟨q', h1, a, b⟩
example : ∃ q', turbineGhost (computeConstants 287 (7 / 5)) 1 2 (exTube 1) = some q' ∧ q'.pressure = 1 ∧ q'.momentum 0 / q'.density = 1 ∧ q'.scalars 0 / q'.density ≠ 1 := by
  obtain ⟨hv, hM⟩ := computeConstants_valid 287 (7 / 5) (by norm_num) (by norm_num)
  obtain ⟨q', h1, h2, h3, -, h4, -, h5⟩ := turbine_ghost_partial _ hv hM (exTube 1) (exTube_state _) 1 2 (by norm_num) (by norm_num)
  obtain ⟨a, -⟩ := h4 (by norm_num [exTube, mixFromPrim])
  refine ⟨q', h1, a, ?_, ?_⟩
  · rw [h5 (by norm_num [exTube, mixFromPrim])]; norm_num [exTube, mixFromPrim]
  · have := turbine_ghost_scalars _ hv hM (exTube 1) q' (exTube_state _) 1 2 (by norm_num) (by norm_num) (by norm_num [exTube, mixFromPrim]) (by norm_num [exTube, mixFromPrim]) 0
      (by norm_num [exTube, mixFromPrim]) h1
    rwa [show (exTube 1).scalars 0 / (exTube 1).density = 1 by norm_num [exTube, mixFromPrim]] at this

/-! ### Outlet with given pressure -/

/-- **C79, what holds (perfect gas).** For every state of the gas and given pressure: if the magnitude of the velocity is at most the speed of sound, the ghost state is a state of the gas with the given pressure and the velocity,
temperature and speed of sound of the inner cell, otherwise it is the inner state. Covered cells get zeros. -/
theorem gas_pressure_outflow_partial (eq : GasEq) (h : eq.Valid) (q : GasComplete d) (hq : IsGasState eq q) (pb : ℝ) (hp : 0 < pb) :
    (∑ i, (q.momentum i / q.density) ^ 2 ≤ q.speedOfSound ^ 2 → ∃ q', gasPressureOutflow eq pb true q = some q' ∧ IsGasState eq q' ∧ q'.pressure = pb ∧
      (∀ i, q'.momentum i / q'.density = q.momentum i / q.density) ∧ q'.pressure / q'.density = q.pressure / q.density ∧ q'.speedOfSound = q.speedOfSound) ∧
    (q.speedOfSound ^ 2 < ∑ i, (q.momentum i / q.density) ^ 2 → gasPressureOutflow eq pb true q = some q) ∧
    gasPressureOutflow eq pb false q = some ⟨0, fun _ => 0, 0, 0, 0⟩ := by
  have hr := hq.density_pos
  have hpq := hq.pressure_pos
  have hc := hq.sound_pos
  have hc2 := hq.sound_sq
  have g0 : 0 < eq.gamma := by linarith [h.one_lt]
  have hsum : ∑ i, gasVelocity q i * gasVelocity q i = ∑ i, (q.momentum i / q.density) ^ 2 := Finset.sum_congr rfl fun i _ => by rw [gasVelocity, sq]
  refine ⟨fun hle => ?_, fun hlt => ?_, by simp [gasPressureOutflow]⟩
  · have hle' : ∑ i, gasVelocity q i * gasVelocity q i ≤ q.speedOfSound * q.speedOfSound := by rw [hsum, ← sq]; exact hle
    have hro : 0 < eq.gamma * pb / (q.speedOfSound * q.speedOfSound) := by positivity
    obtain ⟨s1, s2⟩ := (gas_prim_roundtrip eq h ⟨eq.gamma * pb / (q.speedOfSound * q.speedOfSound), gasVelocity q, pb⟩ hro hp)
    refine ⟨_, by simp only [gasPressureOutflow, if_pos hc, if_pos hle', if_true], s1, rfl, fun i => ?_, ?_, ?_⟩
    · simp only [gasFromPrim, gasVelocity]
      rw [mul_comm, mul_div_assoc, div_self hro.ne', mul_one]
    · simp only [gasFromPrim]
      field_simp
      linarith
    · simp only [gasFromPrim]
      rw [show eq.gamma * pb / (eq.gamma * pb / (q.speedOfSound * q.speedOfSound)) = q.speedOfSound ^ 2 by field_simp]
      exact Real.sqrt_sq hc.le
  · have hlt' : ¬ ∑ i, gasVelocity q i * gasVelocity q i ≤ q.speedOfSound * q.speedOfSound := by rw [hsum, ← sq]; exact not_le.2 hlt
    simp only [gasPressureOutflow, if_pos hc, if_neg hlt', if_true]

/-- **C79, what holds (gas mixture).** The same, and the mass fractions and concentrations of the inner cell are kept. -/
theorem mix_pressure_outflow_partial (eq : MixEq) (h : eq.Valid) (q : MixComplete d s t) (hq : IsMixState eq q) (pb : ℝ) (hp : 0 < pb) :
    (∑ i, (q.momentum i / q.density) ^ 2 ≤ q.speedOfSound ^ 2 → ∃ q', mixPressureOutflow eq pb true q = some q' ∧ IsMixState eq q' ∧ q'.pressure = pb ∧
      (∀ i, q'.momentum i / q'.density = q.momentum i / q.density) ∧ q'.pressure / q'.density = q.pressure / q.density ∧ q'.speedOfSound = q.speedOfSound ∧
      (∀ i, q'.species i / q'.density = q.species i / q.density) ∧ ∀ i, q'.scalars i / q'.density = q.scalars i / q.density) ∧
    (q.speedOfSound ^ 2 < ∑ i, (q.momentum i / q.density) ^ 2 → mixPressureOutflow eq pb true q = some q) ∧
    mixPressureOutflow eq pb false q = some ⟨⟨0, fun _ => 0, 0, fun _ => 0, fun _ => 0⟩, 0, 0⟩ := by
  have hr := hq.density_pos
  have hpq := hq.pressure_pos
  have hc := hq.sound_pos
  have hc2 := hq.sound_sq
  have g0 : 0 < eq.gamma := by linarith [h.one_lt]
  have hsum : ∑ i, mixVelocity q.toMixCons i * mixVelocity q.toMixCons i = ∑ i, (q.momentum i / q.density) ^ 2 := Finset.sum_congr rfl fun i _ => by rw [mixVelocity, sq]
  refine ⟨fun hle => ?_, fun hlt => ?_, by simp [mixPressureOutflow]⟩
  · have hle' : ∑ i, mixVelocity q.toMixCons i * mixVelocity q.toMixCons i ≤ q.speedOfSound * q.speedOfSound := by rw [hsum, ← sq]; exact hle
    have hro : 0 < eq.gamma * pb / (q.speedOfSound * q.speedOfSound) := by positivity
    obtain ⟨s1, s2⟩ := mix_prim_roundtrip eq h { mixPrim q with density := eq.gamma * pb / (q.speedOfSound * q.speedOfSound), pressure := pb } hro hp
    have hcancel : ∀ x : ℝ, eq.gamma * pb / (q.speedOfSound * q.speedOfSound) * x / (eq.gamma * pb / (q.speedOfSound * q.speedOfSound)) = x := fun x => by
      rw [mul_comm, mul_div_assoc, div_self hro.ne', mul_one]
    refine ⟨_, by simp only [mixPressureOutflow, if_pos hc, if_pos hle', if_true], s1, rfl, fun i => ?_, ?_, ?_, fun i => ?_, fun i => ?_⟩
    · exact hcancel _
    · simp only [mixFromPrim]
      field_simp
      linarith
    · simp only [mixFromPrim]
      rw [show eq.gamma * pb / (eq.gamma * pb / (q.speedOfSound * q.speedOfSound)) = q.speedOfSound ^ 2 by field_simp]
      exact Real.sqrt_sq hc.le
    · exact hcancel _
    · exact hcancel _
  · have hlt' : ¬ ∑ i, mixVelocity q.toMixCons i * mixVelocity q.toMixCons i ≤ q.speedOfSound * q.speedOfSound := by rw [hsum, ← sq]; exact not_le.2 hlt
    simp only [mixPressureOutflow, if_pos hc, if_neg hlt', if_true]

/-- **C79 is false for flows along the boundary.** The test uses the magnitude of the velocity instead of its normal component: in two and three dimensions there are states with subsonic normal velocity on which the given
pressure is not imposed. -/
theorem pressure_outflow_wrong (eq : GasEq) (h : eq.Valid) (pb : ℝ) (dir tan : Fin d) (hne : tan ≠ dir) (hp : 0 < pb) :
    ∃ q : GasComplete d, IsGasState eq q ∧ |q.momentum dir / q.density| < q.speedOfSound ∧ ∃ q', gasPressureOutflow eq pb true q = some q' ∧ q'.pressure ≠ pb := by
  have g0 : 0 < eq.gamma := by linarith [h.one_lt]
  have hp2 : 0 < 2 * pb := by linarith
  let v : Fin d → ℝ := fun i => if i = tan then 2 * (1 + eq.gamma * (2 * pb)) else 0
  obtain ⟨hs, -⟩ := gas_prim_roundtrip eq h ⟨1, v, 2 * pb⟩ one_pos hp2
  have hvel : ∀ i, (gasFromPrim eq ⟨1, v, 2 * pb⟩).momentum i / (gasFromPrim eq ⟨1, v, 2 * pb⟩).density = v i := fun i => by simp [gasFromPrim]
  refine ⟨gasFromPrim eq ⟨1, v, 2 * pb⟩, hs, ?_, _, (gas_pressure_outflow_partial eq h _ hs pb hp).2.1 ?_, ?_⟩
  · rw [hvel]
    simp only [v, if_neg (Ne.symm hne), abs_zero]
    exact hs.sound_pos
  · simp only [hvel]
    have h1 : (v tan) ^ 2 ≤ ∑ i, v i ^ 2 := Finset.single_le_sum (f := fun i => v i ^ 2) (fun i _ => sq_nonneg _) (mem_univ tan)
    have h2 : (gasFromPrim eq ⟨1, v, 2 * pb⟩).speedOfSound ^ 2 = eq.gamma * (2 * pb) := by
      have := hs.sound_sq
      simpa [gasFromPrim] using this
    have h3 : v tan = 2 * (1 + eq.gamma * (2 * pb)) := by simp [v]
    rw [h2]
    refine lt_of_lt_of_le ?_ h1
    rw [h3]
    have : 0 < eq.gamma * (2 * pb) := by positivity
    nlinarith
  · simp only [gasFromPrim]
    linarith

/-- The hypotheses are met by a gas at rest and the pressure is imposed. -/
example : ∃ q', gasPressureOutflow (d := 2) (GasEq.new 287 (7 / 5)) 5 true (gasFromPrim (GasEq.new 287 (7 / 5)) ⟨2, fun _ => 0, 3⟩) = some q' ∧ q'.pressure = 5 := by
  have hv : (GasEq.new 287 (7 / 5)).Valid := ⟨by norm_num [GasEq.new], by norm_num [GasEq.new], rfl, rfl⟩
  obtain ⟨hs, -⟩ := gas_prim_roundtrip (d := 2) (GasEq.new 287 (7 / 5)) hv ⟨2, fun _ => 0, 3⟩ (by norm_num) (by norm_num)
  obtain ⟨q', h1, -, h2, -⟩ := (gas_pressure_outflow_partial _ hv _ hs 5 (by norm_num)).1 (by simp [gasFromPrim]; positivity)
  exact ⟨q', h1, h2⟩

/-! ### Given Mach number -/

/-- **C80, what holds.** For every state of a gas and required Mach number the ghost state is a state of the gas with the composition and the tangential velocities of the inner cell, its pressure is the one
that the gas has after an isentropic change to the required Mach number, and the normal velocity is not negative and is the required Mach number times the speed of sound after such a change. -/
theorem mach_boundary_partial (eq : MixEq) (h : eq.Valid) (Ma : ℝ) (hMa : 0 ≤ Ma) (dir : Fin (d + 1)) (q : MixComplete d s t) (hq : IsMixState eq q) :
    let q' := machBoundary eq Ma dir q
    let u := q.momentum dir / q.density
    let u' := q'.momentum dir / q'.density
    let A := 1 + (eq.gamma - 1) / 2 * (u / q.speedOfSound) ^ 2
    let B := 1 + (eq.gamma - 1) / 2 * Ma ^ 2
    IsMixState eq q' ∧ (∀ i, i ≠ dir → q'.momentum i / q'.density = q.momentum i / q.density) ∧ (∀ i, q'.species i / q'.density = q.species i / q.density) ∧
    (∀ i, q'.scalars i / q'.density = q.scalars i / q.density) ∧ q'.pressure * B ^ (eq.gamma / (eq.gamma - 1)) = q.pressure * A ^ (eq.gamma / (eq.gamma - 1)) ∧
    0 ≤ u' ∧ u' ^ 2 = Ma ^ 2 * (q.speedOfSound ^ 2 * A / B) ∧
    q'.density * B ^ (1 / (eq.gamma + 1)) = q.density * A ^ (1 / (eq.gamma - 1)) := by
  intro q' u u' A B
  obtain ⟨g0, g1, g2⟩ := h.pos
  have hr := hq.density_pos
  have hp := hq.pressure_pos
  have hc := hq.sound_pos
  have gp : 0 < eq.gamma + 1 := by linarith
  have hA : 0 < A := by positivity
  have hB : 0 < B := by positivity
  have eA : 1 + 1 / 2 * (u * u / (q.speedOfSound * q.speedOfSound)) * (eq.gamma - 1) = A := by simp only [A]; field_simp
  have hden : 0 < Ma * Ma * (eq.gamma - 1) + 2 := by positivity
  have eB : 1 - (eq.gamma - 1) / (eq.gamma + 1) * (Ma * Ma * (eq.gamma + 1) / (Ma * Ma * (eq.gamma - 1) + 2)) = 1 / B := by
    have : B = (Ma * Ma * (eq.gamma - 1) + 2) / 2 := by simp only [B]; ring
    rw [this]
    field_simp
    ring
  have eV : Ma * Ma * (eq.gamma + 1) / (Ma * Ma * (eq.gamma - 1) + 2) * ((q.speedOfSound * q.speedOfSound + 1 / 2 * (eq.gamma - 1) * (u * u)) * 2 / (eq.gamma + 1)) =
      Ma ^ 2 * (q.speedOfSound ^ 2 * A / B) := by
    have h1 : B = (Ma * Ma * (eq.gamma - 1) + 2) / 2 := by simp only [B]; ring
    have h2 : q.speedOfSound ^ 2 * A = q.speedOfSound * q.speedOfSound + 1 / 2 * (eq.gamma - 1) * (u * u) := by simp only [A]; field_simp
    rw [h1, h2]
    field_simp
  have hV : 0 ≤ Ma ^ 2 * (q.speedOfSound ^ 2 * A / B) := by positivity
  have hq' : q' = mixFromPrim eq { mixPrim q with
      density := q.density * A ^ (1 / (eq.gamma - 1)) * (1 / B) ^ (1 / (eq.gamma + 1))
      pressure := q.pressure * A ^ (eq.gamma / (eq.gamma - 1)) * (1 / B) ^ (eq.gamma / (eq.gamma - 1))
      velocity := fun i => if i = dir then Real.sqrt (Ma ^ 2 * (q.speedOfSound ^ 2 * A / B)) else q.momentum i / q.density } := by
    rw [← eV, ← eB, ← eA]
    rfl
  have hA1 := Real.rpow_pos_of_pos hA (1 / (eq.gamma - 1))
  have hA2 := Real.rpow_pos_of_pos hA (eq.gamma / (eq.gamma - 1))
  have hB1 := Real.rpow_pos_of_pos (one_div_pos.2 hB) (1 / (eq.gamma + 1))
  have hB2 := Real.rpow_pos_of_pos (one_div_pos.2 hB) (eq.gamma / (eq.gamma - 1))
  have hinv : ∀ e : ℝ, (1 / B) ^ e * B ^ e = 1 := fun e => by rw [← Real.mul_rpow (by positivity) hB.le, one_div_mul_cancel hB.ne', Real.one_rpow]
  have hro : 0 < q.density * A ^ (1 / (eq.gamma - 1)) * (1 / B) ^ (1 / (eq.gamma + 1)) := by positivity
  have hpo : 0 < q.pressure * A ^ (eq.gamma / (eq.gamma - 1)) * (1 / B) ^ (eq.gamma / (eq.gamma - 1)) := by positivity
  obtain ⟨hs, -⟩ := mix_prim_roundtrip eq h { mixPrim q with
      density := q.density * A ^ (1 / (eq.gamma - 1)) * (1 / B) ^ (1 / (eq.gamma + 1))
      pressure := q.pressure * A ^ (eq.gamma / (eq.gamma - 1)) * (1 / B) ^ (eq.gamma / (eq.gamma - 1))
      velocity := fun i => if i = dir then Real.sqrt (Ma ^ 2 * (q.speedOfSound ^ 2 * A / B)) else q.momentum i / q.density } hro hpo
  have hcancel : ∀ x : ℝ, q.density * A ^ (1 / (eq.gamma - 1)) * (1 / B) ^ (1 / (eq.gamma + 1)) * x / (q.density * A ^ (1 / (eq.gamma - 1)) * (1 / B) ^ (1 / (eq.gamma + 1))) = x := fun x => by
    rw [mul_comm, mul_div_assoc, div_self hro.ne', mul_one]
  have hu' : u' = Real.sqrt (Ma ^ 2 * (q.speedOfSound ^ 2 * A / B)) := by
    simp only [u', hq', mixFromPrim, if_true]
    exact hcancel _
  refine ⟨hq' ▸ hs, fun i hi => ?_, fun i => ?_, fun i => ?_, ?_, by rw [hu']; exact Real.sqrt_nonneg _, by rw [hu', Real.sq_sqrt hV], ?_⟩
  · rw [hq']; simp only [mixFromPrim, if_neg hi]; exact hcancel _
  · rw [hq']; exact hcancel _
  · rw [hq']; exact hcancel _
  · rw [hq']; simp only [mixFromPrim]; rw [mul_assoc, hinv, mul_one]
  · rw [hq']; simp only [mixFromPrim]; rw [mul_assoc, hinv, mul_one]

/-- **C80 is false.** The density is computed with the exponent `1 / (γ + 1)` instead of `1 / (γ - 1)`: the Mach number of the ghost state is larger than the required one, for every state and every required Mach number
that is not zero, and the entropy changes. -/
theorem mach_boundary_wrong (eq : MixEq) (h : eq.Valid) (Ma : ℝ) (hMa : 0 < Ma) (dir : Fin (d + 1)) (q : MixComplete d s t) (hq : IsMixState eq q) :
    let q' := machBoundary eq Ma dir q
    (q'.momentum dir / q'.density / q'.speedOfSound) ^ 2 = Ma ^ 2 * (1 + (eq.gamma - 1) / 2 * Ma ^ 2) ^ (2 / (eq.gamma ^ 2 - 1)) ∧ Ma < q'.momentum dir / q'.density / q'.speedOfSound ∧
    q'.pressure * q.density ^ eq.gamma < q.pressure * q'.density ^ eq.gamma := by
  intro q'
  obtain ⟨g0, g1, g2⟩ := h.pos
  obtain ⟨hs, -, -, -, h1, h2, h3, h4⟩ := mach_boundary_partial eq h Ma hMa.le dir q hq
  have hr := hq.density_pos
  have hp := hq.pressure_pos
  have hc := hq.sound_pos
  have gp : 0 < eq.gamma + 1 := by linarith
  change IsMixState eq q' at hs
  have hr' := hs.density_pos
  have hp' := hs.pressure_pos
  have hc' := hs.sound_pos
  set A := 1 + (eq.gamma - 1) / 2 * (q.momentum dir / q.density / q.speedOfSound) ^ 2 with hAd
  set B := 1 + (eq.gamma - 1) / 2 * Ma ^ 2 with hBd
  have hA : 0 < A := by positivity
  have hB : 1 < B := by rw [hBd]; have : 0 < (eq.gamma - 1) / 2 * Ma ^ 2 := by positivity
                        linarith
  have hB0 : 0 < B := by linarith
  change q'.pressure * B ^ _ = _ at h1
  change 0 ≤ q'.momentum dir / q'.density at h2
  change (q'.momentum dir / q'.density) ^ 2 = Ma ^ 2 * (q.speedOfSound ^ 2 * A / B) at h3
  change q'.density * B ^ _ = _ at h4
  have eA : A ^ (eq.gamma / (eq.gamma - 1)) = A ^ (1 / (eq.gamma - 1)) * A := by
    rw [show eq.gamma / (eq.gamma - 1) = 1 / (eq.gamma - 1) + 1 by field_simp; ring, Real.rpow_add hA, Real.rpow_one]
  have eB : B ^ (eq.gamma / (eq.gamma - 1)) = B ^ (1 / (eq.gamma + 1)) * (B * B ^ (2 / (eq.gamma ^ 2 - 1))) := by
    have hne : eq.gamma ^ 2 - 1 ≠ 0 := by nlinarith
    rw [show eq.gamma / (eq.gamma - 1) = 1 / (eq.gamma + 1) + (1 + 2 / (eq.gamma ^ 2 - 1)) by
      rw [show eq.gamma ^ 2 - 1 = (eq.gamma - 1) * (eq.gamma + 1) by ring]; field_simp; ring,
      Real.rpow_add hB0, Real.rpow_add hB0, Real.rpow_one]
  have hA1 := Real.rpow_pos_of_pos hA (1 / (eq.gamma - 1))
  have hBp := Real.rpow_pos_of_pos hB0 (1 / (eq.gamma + 1))
  have hBx : 1 < B ^ (2 / (eq.gamma ^ 2 - 1)) := Real.one_lt_rpow hB (by apply div_pos two_pos; nlinarith)
  -- entropy
  have hC : q'.pressure * q.density ^ eq.gamma < q.pressure * q'.density ^ eq.gamma := by
    have k1 : (q'.density * B ^ (1 / (eq.gamma + 1))) ^ eq.gamma = (q.density * A ^ (1 / (eq.gamma - 1))) ^ eq.gamma := by rw [h4]
    rw [Real.mul_rpow hr'.le hBp.le, Real.mul_rpow hr.le hA1.le, ← Real.rpow_mul hA.le, ← Real.rpow_mul hB0.le, one_div_mul_eq_div, one_div_mul_eq_div] at k1
    have hlt : B ^ (eq.gamma / (eq.gamma + 1)) < B ^ (eq.gamma / (eq.gamma - 1)) := by
      apply Real.rpow_lt_rpow_of_exponent_lt hB
      exact div_lt_div_of_pos_left g0 g1 (by linarith)
    have hA2 := Real.rpow_pos_of_pos hA (eq.gamma / (eq.gamma - 1))
    have hB2 := Real.rpow_pos_of_pos hB0 (eq.gamma / (eq.gamma - 1))
    have hrg := Real.rpow_pos_of_pos hr eq.gamma
    have hrg' := Real.rpow_pos_of_pos hr' eq.gamma
    generalize B ^ (eq.gamma / (eq.gamma + 1)) = b1 at *
    generalize B ^ (eq.gamma / (eq.gamma - 1)) = b2 at *
    generalize A ^ (eq.gamma / (eq.gamma - 1)) = a2 at *
    generalize q.density ^ eq.gamma = r at *
    generalize q'.density ^ eq.gamma = r' at *
    have e : q'.pressure * r * b2 = q.pressure * r' * b1 := by
      calc q'.pressure * r * b2 = q'.pressure * b2 * r := by ring
        _ = q.pressure * (r * a2) := by rw [h1]; ring
        _ = _ := by rw [← k1]; ring
    have : q.pressure * r' * b1 < q.pressure * r' * b2 := mul_lt_mul_of_pos_left hlt (by positivity)
    rw [← e] at this
    exact lt_of_mul_lt_mul_right this hB2.le
  -- Mach number
  have hsound : q'.speedOfSound ^ 2 * (B * B ^ (2 / (eq.gamma ^ 2 - 1))) = q.speedOfSound ^ 2 * A := by
    have k1 := hs.sound_sq
    have k2 := hq.sound_sq
    rw [eA, eB] at h1
    generalize B ^ (2 / (eq.gamma ^ 2 - 1)) = y at *
    generalize B ^ (1 / (eq.gamma + 1)) = b at *
    generalize A ^ (1 / (eq.gamma - 1)) = a at *
    have : q'.density * b * (q'.speedOfSound ^ 2 * (B * y)) = q'.density * b * (q.speedOfSound ^ 2 * A) := by
      calc q'.density * b * (q'.speedOfSound ^ 2 * (B * y)) = (q'.speedOfSound ^ 2 * q'.density) * (b * (B * y)) := by ring
        _ = eq.gamma * (q'.pressure * (b * (B * y))) := by rw [k1]; ring
        _ = eq.gamma * q.pressure * a * A := by rw [h1]; ring
        _ = q.density * a * (q.speedOfSound ^ 2 * A) := by rw [← k2]; ring
        _ = _ := by rw [← h4]
    exact mul_left_cancel₀ (by positivity) this
  have hM : (q'.momentum dir / q'.density / q'.speedOfSound) ^ 2 = Ma ^ 2 * B ^ (2 / (eq.gamma ^ 2 - 1)) := by
    rw [div_pow (q'.momentum dir / q'.density), h3, ← hsound]
    generalize B ^ (2 / (eq.gamma ^ 2 - 1)) = y at *
    field_simp
  refine ⟨hM, ?_, hC⟩
  refine lt_of_pow_lt_pow_left₀ 2 (div_nonneg h2 hc'.le) ?_
  rw [hM]
  have : 0 < Ma ^ 2 := by positivity
  nlinarith

/-- The hypotheses are met and the error is not small: for `γ = 7/5` and the required Mach number two the square of the Mach number of the ghost state is more than seven instead of four. -/
example : 7 < ((machBoundary (computeConstants 287 (7 / 5)) 2 0 (exTube 1)).momentum 0 / (machBoundary (computeConstants 287 (7 / 5)) 2 0 (exTube 1)).density /
    (machBoundary (computeConstants 287 (7 / 5)) 2 0 (exTube 1)).speedOfSound) ^ 2 := by
  obtain ⟨hv, hM⟩ := computeConstants_valid 287 (7 / 5) (by norm_num) (by norm_num)
  rw [(mach_boundary_wrong _ hv 2 (by norm_num) 0 (exTube 1) (exTube_state _)).1]
  norm_num [computeConstants]
  have h1 : (9 / 5 : ℝ) ^ (1 : ℝ) ≤ (9 / 5 : ℝ) ^ (25 / 12 : ℝ) := Real.rpow_le_rpow_of_exponent_le (by norm_num) (by norm_num)
  rw [Real.rpow_one] at h1
  linarith

end Fub
