import Verif.Model.AxiSymmetric
import Mathlib.Tactic.FieldSimp
import Mathlib.Tactic.Ring
import Mathlib.Tactic.Linarith
import Mathlib.Tactic.NormNum

/-!
C90 (axi-symmetric source term).
-/

namespace Fub
variable {s : ℕ}

/-- The stability function of the classical Runge-Kutta method. -/
noncomputable def rk4Poly (z : ℝ) : ℝ := 1 + z + z ^ 2 / 2 + z ^ 3 / 6 + z ^ 4 / 24

theorem rk4Poly_pos (z : ℝ) : 0 < rk4Poly z := by
  have : rk4Poly z = ((z ^ 2 + 2 * z) ^ 2 + 8 * (z + 3 / 2) ^ 2 + 6) / 24 := by unfold rk4Poly; ring
  rw [this]; positivity

/-- The gas law used for the energy statement: pressure `(γ - 1)` times internal energy. -/
def CaloricallyPerfect (gamma : ℝ) (press : AxiCons s → ℝ) : Prop :=
  ∀ U : AxiCons s, 0 < U.density → press U = (gamma - 1) * (U.energy - (U.axial ^ 2 + U.radial ^ 2) / (2 * U.density))

/-- Density, both momenta and the kinetic energy of `U` scaled with `a`, the internal energy with `b`; arbitrary species. -/
structure Scaled (U : AxiCons s) (a b : ℝ) (V : AxiCons s) : Prop where
  density : V.density = a * U.density
  axial : V.axial = a * U.axial
  radial : V.radial = a * U.radial
  energy : V.energy = a * ((U.axial ^ 2 + U.radial ^ 2) / (2 * U.density)) + b * (U.energy - (U.axial ^ 2 + U.radial ^ 2) / (2 * U.density))

theorem axi_rhs_scaled {gamma : ℝ} {press : AxiCons s → ℝ} (hp : CaloricallyPerfect gamma press) {r : ℝ} (hr : 0 < r) {U V : AxiCons s} (hU : 0 < U.density) {a b : ℝ}
    (h : Scaled U a b V) (ha : 0 < a) : Scaled U (-(U.radial / U.density / r) * a) (-(U.radial / U.density / r) * (gamma * b)) (axiRhs press r V) := by
  have hV : 0 < V.density := by rw [h.density]; positivity
  have hpr := hp V hV
  constructor
  · simp only [axiRhs, h.density, h.radial]; field_simp
  · simp only [axiRhs, h.density, h.radial, h.axial]; field_simp
  · simp only [axiRhs, h.density, h.radial]; field_simp
  · simp only [axiRhs, hpr, h.density, h.radial, h.axial, h.energy]; field_simp; ring

theorem scaled_axpy {U V W : AxiCons s} {a b a' b' h : ℝ} (h1 : Scaled U a b V) (h2 : Scaled U a' b' W) : Scaled U (a + h * a') (b + h * b') (V.axpy h W) := by
  constructor
  · simp only [AxiCons.axpy, h1.density, h2.density]; ring
  · simp only [AxiCons.axpy, h1.axial, h2.axial]; ring
  · simp only [AxiCons.axpy, h1.radial, h2.radial]; ring
  · simp only [AxiCons.axpy, h1.energy, h2.energy]; ring

theorem scaled_self (U : AxiCons s) : Scaled U 1 1 U := by constructor <;> ring

/-- One Runge-Kutta step scales density and momentum with `R(z)` and the internal energy with `R(γ z)`, `z = -h u / r`. -/
theorem rk4_scaled {gamma : ℝ} {press : AxiCons s → ℝ} (hp : CaloricallyPerfect gamma press) {r : ℝ} (hr : 0 < r) {U V : AxiCons s} (hU : 0 < U.density) {a b : ℝ}
    (h : Scaled U a b V) (ha : 0 < a) {z hh : ℝ} (hz : z = -(U.radial / U.density / r) * hh) (hz1 : -1 ≤ z) (hz0 : z ≤ 0) :
    Scaled U (a * rk4Poly z) (b * rk4Poly (gamma * z)) (rk4Step (axiRhs press r) hh V) := by
  set c := -(U.radial / U.density / r) with hc
  have k1 := axi_rhs_scaled hp hr hU h ha
  rw [← hc] at k1
  have v2 := scaled_axpy (h := hh / 2) h k1
  have e2 : a + hh / 2 * (c * a) = a * (1 + z / 2) := by rw [hz]; ring
  have p2 : 0 < a + hh / 2 * (c * a) := by rw [e2]; exact mul_pos ha (by linarith)
  have k2 := axi_rhs_scaled hp hr hU v2 p2
  rw [← hc] at k2
  have v3 := scaled_axpy (h := hh / 2) h k2
  have e3 : a + hh / 2 * (c * (a + hh / 2 * (c * a))) = a * (1 + z / 2 + z ^ 2 / 4) := by rw [hz]; ring
  have p3 : 0 < a + hh / 2 * (c * (a + hh / 2 * (c * a))) := by rw [e3]; exact mul_pos ha (by nlinarith [sq_nonneg z])
  have k3 := axi_rhs_scaled hp hr hU v3 p3
  rw [← hc] at k3
  have v4 := scaled_axpy (h := hh) h k3
  have e4 : a + hh * (c * (a + hh / 2 * (c * (a + hh / 2 * (c * a))))) = a * (1 + z + z ^ 2 / 2 + z ^ 3 / 4) := by rw [hz]; ring
  have p4 : 0 < a + hh * (c * (a + hh / 2 * (c * (a + hh / 2 * (c * a))))) := by
    rw [e4]
    refine mul_pos ha ?_
    have : 0 ≤ z ^ 2 * (1 + z) := mul_nonneg (sq_nonneg z) (by linarith)
    nlinarith [sq_nonneg (z + 1), sq_nonneg z]
  have k4 := axi_rhs_scaled hp hr hU v4 p4
  rw [← hc] at k4
  have := scaled_axpy (h := hh / 6) (scaled_axpy (h := hh / 3) (scaled_axpy (h := hh / 3) (scaled_axpy (h := hh / 6) h k1) k2) k3) k4
  convert this using 1
  · rw [hz]; unfold rk4Poly; ring
  · rw [hz]; unfold rk4Poly; ring
  · rfl

theorem rk4_iterate_scaled {gamma : ℝ} {press : AxiCons s → ℝ} (hp : CaloricallyPerfect gamma press) {r : ℝ} (hr : 0 < r) {U : AxiCons s} (hU : 0 < U.density)
    {z hh : ℝ} (hz : z = -(U.radial / U.density / r) * hh) (hz1 : -1 ≤ z) (hz0 : z ≤ 0) (n : ℕ) :
    Scaled U (rk4Poly z ^ n) (rk4Poly (gamma * z) ^ n) ((rk4Step (axiRhs press r) hh)^[n] U) := by
  induction n with
  | zero => simpa using scaled_self U
  | succ n ih =>
    rw [Function.iterate_succ_apply', pow_succ, pow_succ]
    exact rk4_scaled hp hr hU ih (pow_pos (rk4Poly_pos z) n) hz hz1 hz0

/-- The number of steps the integrator makes for a gas with radial velocity `u`. -/
noncomputable def axiSteps (dt r u : ℝ) : ℕ := if u < 0 then 0 else if u = 0 then 1 else ⌊dt / min dt (r / u)⌋₊

/-- **C90.** The source term always succeeds on a state with positive density; it does not change the velocity, it keeps density and internal energy positive, and both are multiplied by the Runge-Kutta
approximations of the exact factors `exp(-u t / r)` and `exp(-γ u t / r)`, once for every step. -/
theorem axi_source_partial {gamma : ℝ} {press : AxiCons s → ℝ} (hp : CaloricallyPerfect gamma press) {alpha r dt : ℝ} (halpha : 0 < alpha) (hr : 0 < r) (hdt : 0 < dt) {U : AxiCons s}
    (hU : 0 < U.density) :
    let u := U.radial / U.density
    let h := axiStepSize dt r u
    ∃ U', axiCell press alpha r dt U = some U' ∧ U'.radial / U'.density = u ∧ U'.axial / U'.density = U.axial / U.density ∧
      0 < U'.density ∧ U'.density = U.density * rk4Poly (-(u * h / r)) ^ axiSteps dt r u ∧
      U'.energy - (U'.axial ^ 2 + U'.radial ^ 2) / (2 * U'.density)
        = (U.energy - (U.axial ^ 2 + U.radial ^ 2) / (2 * U.density)) * rk4Poly (-(gamma * u * h / r)) ^ axiSteps dt r u := by
  intro u h
  have main : ∃ n, n = axiSteps dt r u ∧ ∃ z, z = -(u * h / r) ∧ Scaled U (rk4Poly z ^ n) (rk4Poly (gamma * z) ^ n) (integrateConst (axiRhs press r) dt h U) := by
    refine ⟨_, rfl, _, rfl, ?_⟩
    rcases lt_trichotomy u 0 with hu | hu | hu
    · have hh : h < 0 := by
        have : r / u < 0 := div_neg_of_pos_of_neg hr hu
        simp only [h, axiStepSize, hu.ne, if_false]
        exact (min_le_right _ _).trans_lt this
      simp only [integrateConst, if_neg (not_lt.2 hh.le), axiSteps, if_pos hu, pow_zero]
      exact scaled_self U
    · have hh : h = dt := by simp [h, axiStepSize, hu]
      have hz : -(u * h / r) = -(U.radial / U.density / r) * h := by simp only [u]; ring
      rw [integrateConst, hh, if_pos hdt, div_self hdt.ne', Nat.floor_one, axiSteps, if_neg (by simp [hu]), if_pos hu]
      rw [← hh]
      exact rk4_iterate_scaled hp hr hU hz (by simp [hu]) (by simp [hu]) 1
    · have hru : 0 < r / u := div_pos hr hu
      have he : h = min dt (r / u) := by simp [h, axiStepSize, hu.ne']
      have hh : 0 < h := by rw [he]; exact lt_min hdt hru
      have hz : -(u * h / r) = -(U.radial / U.density / r) * h := by simp only [u]; ring
      have hle : u * h / r ≤ 1 := by
        have : h ≤ r / u := by rw [he]; exact min_le_right _ _
        rw [div_le_one hr]
        calc u * h ≤ u * (r / u) := by gcongr
          _ = r := by field_simp
      have h0 : 0 ≤ u * h / r := by positivity
      rw [integrateConst, if_pos hh, axiSteps, if_neg (by linarith), if_neg hu.ne', ← he]
      exact rk4_iterate_scaled hp hr hU hz (by linarith) (by linarith) _
  obtain ⟨n, hn, z, hz, hs⟩ := main
  have hR := rk4Poly_pos z
  have hRn : 0 < rk4Poly z ^ n := pow_pos hR n
  have hd : 0 < (integrateConst (axiRhs press r) dt h U).density := by rw [hs.density]; positivity
  refine ⟨integrateConst (axiRhs press r) dt h U, ?_, ?_, ?_, hd, ?_, ?_⟩
  · simp only [axiCell, if_pos halpha, if_pos hr]
    rw [if_neg (not_le.2 hd)]
  · rw [hs.radial, hs.density, mul_div_mul_left _ _ hRn.ne']
  · rw [hs.axial, hs.density, mul_div_mul_left _ _ hRn.ne']
  · rw [hs.density, ← hz, hn]; ring
  · have e : -(gamma * u * h / r) = gamma * z := by rw [hz]; ring
    rw [hs.energy, hs.axial, hs.radial, hs.density, e, ← hn]
    field_simp
    ring

/-- **C90.** Covered cells and cells on or behind the axis are left alone. -/
theorem axi_source_skips (press : AxiCons s → ℝ) (alpha r dt : ℝ) (U : AxiCons s) (h : alpha ≤ 0 ∨ r ≤ 0) : axiCell press alpha r dt U = some U := by
  simp only [axiCell]
  rcases h with h | h
  · rw [if_neg (not_lt.2 h)]
  · rw [if_neg (not_lt.2 h), ite_self]

/-- **C90, disagreement.** For a gas that flows towards the axis the step size is negative and the integrator makes no step: the source term is dropped. -/
theorem axi_source_inflow_dropped (press : AxiCons s → ℝ) {alpha r dt : ℝ} (hdt : 0 < dt) {U : AxiCons s} (hU : 0 < U.density) (hin : U.radial < 0) :
    axiCell press alpha r dt U = some U := by
  simp only [axiCell]
  split
  · split
    · rename_i hr
      have hu : U.radial / U.density < 0 := div_neg_of_neg_of_pos hin hU
      have : r / (U.radial / U.density) < 0 := div_neg_of_pos_of_neg hr hu
      have hh : axiStepSize dt r (U.radial / U.density) < 0 := by
        simp only [axiStepSize, hu.ne, if_false]
        exact (min_le_right _ _).trans_lt this
      rw [integrateConst, if_neg (not_lt.2 hh.le), if_neg (not_le.2 hU)]
    · rfl
  · rfl

/-- **C90, disagreement.** The steps cover the time step only if it is a multiple of the step size: the integrated time is at most `dt` and misses it by less than one step. For `r / u < dt < 2 r / u` it is `r / u`. -/
theorem axi_source_time {dt r u : ℝ} (hr : 0 < r) (hdt : 0 < dt) (hu : 0 < u) :
    axiSteps dt r u * axiStepSize dt r u ≤ dt ∧ dt < (axiSteps dt r u + 1) * axiStepSize dt r u ∧
    (r / u < dt → dt < 2 * (r / u) → axiSteps dt r u * axiStepSize dt r u = r / u) := by
  have hru : 0 < r / u := div_pos hr hu
  have hm : 0 < min dt (r / u) := lt_min hdt hru
  simp only [axiSteps, axiStepSize, if_neg (not_lt.2 hu.le), if_neg hu.ne']
  refine ⟨?_, ?_, fun h1 h2 => ?_⟩
  · have := Nat.floor_le (div_pos hdt hm).le
    rwa [le_div_iff₀ hm] at this
  · have := Nat.lt_floor_add_one (dt / min dt (r / u))
    rwa [div_lt_iff₀ hm] at this
  · rw [min_eq_right h1.le]
    have : ⌊dt / (r / u)⌋₊ = 1 := by
      rw [Nat.floor_eq_iff (by positivity)]
      constructor
      · rw [Nat.cast_one, le_div_iff₀ hru]; linarith
      · rw [div_lt_iff₀ hru]; push_cast; linarith
    rw [this]; simp

/-- **C90, disagreement.** The species are partial densities but their source has a further factor `ρ`: the rate of change of a mass fraction is zero only for `ρ = 1`, for an absent species or without radial flow. -/
theorem axi_species_rate (press : AxiCons s → ℝ) {r : ℝ} (hr : 0 < r) {U : AxiCons s} (hU : 0 < U.density) (i : Fin s) :
    let f := axiRhs press r U
    U.density * f.species i - U.species i * f.density = 0 ↔ U.density = 1 ∨ U.species i = 0 ∨ U.radial = 0 := by
  have e : U.density * (axiRhs press r U).species i - U.species i * (axiRhs press r U).density = U.species i * (1 - U.density) * U.radial / r := by
    simp only [axiRhs]; field_simp; ring
  simp only [e, div_eq_zero_iff, hr.ne', or_false, mul_eq_zero]
  constructor
  · rintro ((h | h) | h)
    · exact Or.inr (Or.inl h)
    · left; linarith
    · exact Or.inr (Or.inr h)
  · rintro (h | h | h)
    · left; right; linarith
    · exact Or.inl (Or.inl h)
    · exact Or.inr h

/-- A pure gas of density 2 that moves outwards with velocity 1 at radius 1. -/
noncomputable def pureGas : AxiCons 1 := ⟨2, 0, 2, 3, fun _ => 2⟩

/-- **C90, disagreement.** One step for a pure gas: afterwards the partial density of the only species is not the density. -/
theorem axi_species_wrong : ∃ U', axiCell (fun _ => 0) 1 1 1 pureGas = some U' ∧ U'.species 0 ≠ U'.density := by
  have e : axiCell (fun _ => 0) 1 1 1 pureGas = some (rk4Step (axiRhs (fun _ => 0) 1) 1 pureGas) := by
    have hs : axiStepSize 1 1 (pureGas.radial / pureGas.density) = 1 := by simp [axiStepSize, pureGas]
    have hi : integrateConst (axiRhs (fun _ => 0) 1) 1 1 pureGas = rk4Step (axiRhs (fun _ => 0) 1) 1 pureGas := by simp [integrateConst]
    simp only [axiCell, zero_lt_one, if_true, hs, hi]
    rw [if_neg]
    norm_num [rk4Step, axiRhs, AxiCons.axpy, pureGas]
  refine ⟨_, e, ?_⟩
  norm_num [rk4Step, axiRhs, AxiCons.axpy, pureGas]

/-- A calorically perfect gas law and a state that moves outwards: the premises of the theorems are met. -/
example : CaloricallyPerfect (s := 1) (7 / 5) (fun U => (7 / 5 - 1) * (U.energy - (U.axial ^ 2 + U.radial ^ 2) / (2 * U.density))) ∧ 0 < pureGas.density ∧ 0 < pureGas.radial ∧
    0 < pureGas.energy - (pureGas.axial ^ 2 + pureGas.radial ^ 2) / (2 * pureGas.density) :=
  ⟨fun _ _ => rfl, by norm_num [pureGas], by norm_num [pureGas], by norm_num [pureGas]⟩

end Fub
