import Verif.Spec.GasMix
import Verif.Props.Gas

/-!
# C62 - C65: conversions of the gas mixture, kinetic states, isentropic pressure changes
-/

namespace Fub
open Finset
variable {d s t : ℕ}

/-! ## C62: conversions -/

/-- The constants computed by the library fit to each other and have Mach number scaling one. -/
theorem computeConstants_valid (R g : ℝ) (hR : 0 < R) (hg : 1 < g) : (computeConstants R g).Valid ∧ (computeConstants R g).Msq = 1 := by
  have h1 : (computeConstants R g).Msq = 1 := by
    simp only [computeConstants]
    rw [Real.mul_self_sqrt (by positivity)]
    exact div_self (by positivity)
  refine ⟨⟨hg, rfl, rfl, rfl, ?_, rfl, by rw [h1]; norm_num, rfl⟩, h1⟩
  simp only [computeConstants]
  ring

theorem MixEq.Valid.pos {eq : MixEq} (h : eq.Valid) : 0 < eq.gamma ∧ 0 < eq.gamma - 1 ∧ 0 < eq.gammaMinusOneInv := by
  have := h.one_lt
  refine ⟨by linarith, by linarith, ?_⟩
  rw [h.minusOneInv]
  exact one_div_pos.2 (by linarith)

/-- **C62 (primitive).** For every valid gas, rank, numbers of species and scalars, and primitive state with positive density and pressure: the complete state is a state of the gas and the conversion back
gives the primitive state. -/
theorem mix_prim_roundtrip (eq : MixEq) (h : eq.Valid) (w : Prim d s t) (hr : 0 < w.density) (hp : 0 < w.pressure) :
    IsMixState eq (mixFromPrim eq w) ∧ mixPrim (mixFromPrim eq w) = w := by
  obtain ⟨g0, g1, g2⟩ := h.pos
  obtain ⟨c1, c2⟩ := sqrt_sound g0 hp hr
  refine ⟨⟨hr, hp, ?_, c1, c2⟩, ?_⟩
  · simp only [mixFromPrim, gasKinetic_eq, h.minusOneInv]
    ring
  · ext i <;> simp only [mixPrim, mixFromPrim] <;> field_simp

/-- **C62 (conservative).** Completing the conservative part of a state of the gas gives back this state, in the scalar version (which does not fail), the array version and on unmasked lanes of the masked version;
masked-out lanes are zero. -/
theorem mix_cons_roundtrip (eq : MixEq) (h : eq.Valid) (q : MixComplete d s t) (hq : IsMixState eq q) :
    mixComplete eq q.toMixCons = some q ∧ mixCompleteArray eq q.toMixCons = q ∧ mixCompleteMasked eq q.toMixCons true = q ∧
    mixCompleteMasked eq q.toMixCons false = ⟨⟨0, fun _ => 0, 0, fun _ => 0, fun _ => 0⟩, 0, 0⟩ := by
  obtain ⟨g0, g1, g2⟩ := h.pos
  obtain ⟨hr, hp, he, hc, hc2⟩ := hq
  have hk : gasKinetic q.density q.momentum = (∑ i, q.momentum i ^ 2) / (2 * q.density) := gasKinetic_eq _ _
  have hint : q.energy - eq.Msq * gasKinetic q.density q.momentum = q.pressure / (eq.gamma - 1) := by rw [hk, he]; ring
  have hpd : (q.energy - eq.Msq * gasKinetic q.density q.momentum) / eq.gammaMinusOneInv = q.pressure := by
    rw [hint, h.minusOneInv]; field_simp
  have hpm : (q.energy - eq.Msq * gasKinetic q.density q.momentum) * eq.gammaMinusOne = q.pressure := by
    rw [hint, h.minusOne]; field_simp
  have hs : Real.sqrt (eq.gamma * q.pressure / q.density) = q.speedOfSound := by
    rw [← hc2, mul_div_assoc, div_self hr.ne', mul_one, Real.sqrt_sq hc.le]
  have hlt : eq.Msq * gasKinetic q.density q.momentum < q.energy := by
    have : 0 < q.pressure / (eq.gamma - 1) := by positivity
    linarith
  refine ⟨?_, ?_, ?_, ?_⟩
  · simp only [mixComplete, hlt, if_true, hpd, hp, hr, and_self, hs]
  · simp only [mixCompleteArray, hpm, h.arr, hs]
  · have hm : gasKineticMasked q.density q.momentum true = gasKinetic q.density q.momentum := by
      simp [gasKineticMasked, gasKinetic, hr]
    simp only [mixCompleteMasked, hr, decide_true, Bool.and_self, if_true, hm, hpd, h.arr, hs]
  · simp [mixCompleteMasked]

/-- **C62 (assertions).** Completing a conservative state succeeds exactly if density and internal energy are positive, and then the result is a state of the gas with the same conservative part. -/
theorem mix_complete_iff (eq : MixEq) (h : eq.Valid) (u : MixCons d s t) (hr : 0 < u.density) :
    (u.Admissible eq ↔ (mixComplete eq u).isSome) ∧ ∀ q, mixComplete eq u = some q → q.toMixCons = u ∧ IsMixState eq q := by
  obtain ⟨g0, g1, g2⟩ := h.pos
  have hk : gasKinetic u.density u.momentum = (∑ i, u.momentum i ^ 2) / (2 * u.density) := gasKinetic_eq _ _
  have hadm : u.Admissible eq ↔ eq.Msq * gasKinetic u.density u.momentum < u.energy := by
    unfold MixCons.Admissible
    rw [hk, ← mul_div_assoc, div_lt_iff₀ (by positivity)]
    constructor
    · rintro ⟨-, h1⟩; linarith
    · intro h1; exact ⟨hr, by linarith⟩
  have key : ∀ hlt : eq.Msq * gasKinetic u.density u.momentum < u.energy, 0 < (u.energy - eq.Msq * gasKinetic u.density u.momentum) / eq.gammaMinusOneInv := fun hlt =>
    div_pos (by linarith) g2
  constructor
  · rw [hadm]
    simp only [mixComplete]
    constructor
    · intro hlt
      rw [if_pos hlt, if_pos ⟨key hlt, hr⟩]
      rfl
    · intro h1
      by_contra hlt
      rw [if_neg hlt] at h1
      simp at h1
  · intro q hq
    simp only [mixComplete] at hq
    split_ifs at hq with hlt hpr
    obtain rfl := Option.some.inj hq
    obtain ⟨c1, c2⟩ := sqrt_sound g0 hpr.1 hr
    refine ⟨rfl, hr, hpr.1, ?_, c1, c2⟩
    simp only [hk, h.minusOneInv]
    field_simp
    ring

/-- **C62 (flux).** For every positive density: the flux carries mass, momentum, energy, species and scalars with the normal velocity, with pressure over `Msq` in the momentum and pressure work in the energy;
all three versions agree. -/
theorem mix_flux (eq : MixEq) (h : eq.Valid) (q : MixComplete d s t) (hr : 0 < q.density) (dir : Fin (d + 1)) :
    let u := q.momentum dir / q.density
    let F : MixCons d s t := ⟨q.density * u, fun i => q.momentum i * u + if i = dir then q.pressure / eq.Msq else 0, (q.energy + q.pressure) * u, fun i => q.species i * u, fun i => q.scalars i * u⟩
    mixFlux eq q dir = some F ∧ mixFluxArray eq q dir = F ∧ mixFluxMasked eq q true dir = F := by
  intro u F
  have hF : mixFluxArray eq q dir = F := by
    have hm := h.msq_pos.ne'
    ext i <;> simp only [mixFluxArray, F, u, h.msqinv] <;> (try split_ifs) <;> field_simp
  refine ⟨?_, hF, ?_⟩
  · simp only [mixFlux, hr, if_true, ← hF, mixFluxArray]
  · simp only [mixFluxMasked, hr, decide_true, Bool.and_self, if_true, ← hF, mixFluxArray]

/-- Reflections and rotations of states of the gas are states of the gas, with the same species and scalars; reflecting twice gives the state back. -/
theorem mix_reflect_rotate (eq : MixEq) (q : MixComplete d s t) (n : Fin (d + 1) → ℝ) (hn : IsUnit' n) (R : Fin (d + 1) → Fin (d + 1) → ℝ) (hR : IsOrtho R) (hq : IsMixState eq q) :
    IsMixState eq (mixReflect n q) ∧ IsMixState eq (mixRotate R q) ∧ mixReflect n (mixReflect n q) = q ∧ (mixReflect n q).species = q.species ∧ (mixRotate R q).species = q.species ∧
    (mixReflect n q).scalars = q.scalars ∧ (mixRotate R q).scalars = q.scalars := by
  have e1 := reflectVec_sq n q.momentum hn
  have e2 : ∑ i, rotateVec R q.momentum i ^ 2 = ∑ i, q.momentum i ^ 2 := (gas_rotate (GasEq.new 1 2) R hR ⟨1, q.momentum, 1, 1, 1⟩).2.1
  refine ⟨⟨hq.1, hq.2, ?_, hq.4, hq.5⟩, ⟨hq.1, hq.2, ?_, hq.4, hq.5⟩, ?_, rfl, rfl, rfl, rfl⟩
  · simp only [mixReflect, e1]; exact hq.3
  · simp only [mixRotate, e2]; exact hq.3
  · simp only [mixReflect, reflectVec_twice n q.momentum hn]

/-! ## C63: kinetic states -/

/-- The mole fractions of the scalar conversion for admissible mass fractions. -/
theorem kinFromMix_sum (q : MixComplete d s t) : ∑ i, (kinFromMix q).fractions i = max (∑ i, q.species i / q.density) 1 := by
  rw [Fin.sum_univ_castSucc]
  simp only [kinFromMix, Fin.snoc_castSucc, Fin.snoc_last]
  rcases le_total (∑ i, q.species i / q.density) 1 with h | h
  · rw [max_eq_right (by linarith), max_eq_right h]; ring
  · rw [max_eq_left (by linarith), max_eq_left h]; ring

/-- **C63.** For every state of a gas without Mach number scaling whose mass fractions are admissible: its kinetic state has mole fractions that are not negative and sum up to one, and completing the kinetic state with
the velocity of the state gives the state back; the same holds for the array versions, which do not fail their assertion. -/
theorem kinetic_roundtrip (eq : MixEq) (h : eq.Valid) (hM : eq.Msq = 1) (q : MixComplete d s t) (hq : IsMixState eq q) (hf : q.Fractions) :
    (∀ i, 0 ≤ (kinFromMix q).fractions i) ∧ ∑ i, (kinFromMix q).fractions i = 1 ∧ mixFromKin eq (kinFromMix q) (mixVelocity q.toMixCons) = q ∧
    kinFromMixArray q = some (kinFromMix q) ∧ mixFromKinArray eq (kinFromMix q) (mixVelocity q.toMixCons) = q := by
  obtain ⟨g0, g1, g2⟩ := h.pos
  obtain ⟨hr, hp, he, hc, hc2⟩ := hq
  obtain ⟨hf0, hf1⟩ := hf
  have hsum : ∑ i, q.species i / q.density ≤ 1 := by
    rw [← Finset.sum_div, div_le_one hr]; exact hf1
  have hone : ∑ i, (kinFromMix q).fractions i = 1 := by rw [kinFromMix_sum, max_eq_right hsum]
  have hsound : Real.sqrt (eq.gamma * (q.pressure / q.density)) = q.speedOfSound := by
    rw [← mul_div_assoc, ← hc2, mul_div_assoc, div_self hr.ne', mul_one, Real.sqrt_sq hc.le]
  have hsq : ∑ i, q.momentum i / q.density * (q.momentum i / q.density) = (∑ i, q.momentum i ^ 2) / q.density ^ 2 := by
    rw [Finset.sum_div]
    exact Finset.sum_congr rfl fun i _ => by field_simp
  have hmom : (fun i => q.density * (q.momentum i / q.density)) = q.momentum := funext fun i => by field_simp
  have hone' := hone
  refine ⟨?_, hone, ?_, ?_, ?_⟩
  · intro i
    refine Fin.lastCases ?_ (fun i => ?_) i
    · simp only [kinFromMix, Fin.snoc_last]; exact le_max_left _ _
    · simp only [kinFromMix, Fin.snoc_castSucc]; exact div_nonneg (hf0 i) hr.le
  · simp only [mixFromKin, hone']
    ext i
    · rfl
    · simp only [kinFromMix, mixVelocity]; field_simp
    · simp only [kinFromMix, kinInternalEnergy, mixTemperature, mixVelocity, hsq, he, hM, h.minusOneInv]
      field_simp
    · simp only [kinFromMix, Fin.snoc_castSucc]; field_simp
    · simp only [kinFromMix]; field_simp
    · simp only [kinFromMix, mixTemperature]; field_simp
    · simp only [kinFromMix, mixTemperature, hsound]
  · have hcl : (fun i => max (q.species i / q.density) 0) = fun i => q.species i / q.density :=
      funext fun i => max_eq_left (div_nonneg (hf0 i) hr.le)
    have hfr : (kinFromMix q).fractions = Fin.snoc (α := fun _ => ℝ) (fun i => q.species i / q.density) (max (1 - ∑ i, q.species i / q.density) 0) := by
      simp only [kinFromMix, max_comm]
    simp only [kinFromMixArray, hcl, ← hfr, hone, div_one, if_true]
    rfl
  · simp only [mixFromKinArray, hone']
    ext i
    · rfl
    · simp only [kinFromMix, mixVelocity]; field_simp
    · simp only [kinFromMix, kinInternalEnergy, mixTemperature, mixVelocity, hmom, gasKinetic_eq, he, hM, h.minusOneInv]
      field_simp
    · simp only [kinFromMix, Fin.snoc_castSucc]; field_simp
    · simp only [kinFromMix]; field_simp
    · simp only [kinFromMix, mixTemperature]; field_simp
    · simp only [kinFromMix, mixTemperature, hsound]

/-- **C63 (array conversion).** For every state, even with inadmissible mass fractions, the mole fractions of the array version are not negative and sum up to one, so its assertion does not fail. -/
theorem kinFromMixArray_normalised (q : MixComplete d s t) : ∃ k, kinFromMixArray q = some k ∧ (∀ i, 0 ≤ k.fractions i) ∧ ∑ i, k.fractions i = 1 := by
  let clamped : Fin s → ℝ := fun i => max (q.species i / q.density) 0
  let all : Fin (s + 1) → ℝ := Fin.snoc (α := fun _ => ℝ) clamped (max (1 - ∑ i, clamped i) 0)
  have h0 : ∀ i, 0 ≤ all i := by
    intro i
    refine Fin.lastCases ?_ (fun i => ?_) i
    · simp only [all, Fin.snoc_last]; exact le_max_right _ _
    · simp only [all, Fin.snoc_castSucc]; exact le_max_right _ _
  have h1 : 1 ≤ ∑ i, all i := by
    rw [Fin.sum_univ_castSucc]
    simp only [all, Fin.snoc_castSucc, Fin.snoc_last]
    have := le_max_left (1 - ∑ i, clamped i) 0
    linarith
  have h2 : ∑ i, all i / ∑ j, all j = 1 := by
    rw [← Finset.sum_div]; exact div_self (by linarith)
  refine ⟨⟨q.density, mixTemperature q, fun i => all i / ∑ j, all j, fun i => q.scalars i / q.density⟩, ?_, fun i => div_nonneg (h0 i) (by linarith), h2⟩
  simp only [kinFromMixArray]
  rw [if_pos h2]

/-- **C63 is false with Mach number scaling.** For every positive density and every velocity, the energy of the scalar version differs from that of the array version by `(1 - Msq)` times the kinetic
energy, and only the array version gives a state of the gas. -/
theorem mixFromKin_mach (eq : MixEq) (h : eq.Valid) (k : MixKin s t) (hr : 0 < k.density) (hT : 0 < k.temperature) (u : Fin (d + 1) → ℝ) :
    (mixFromKin eq k u).energy - (mixFromKinArray eq k u).energy = (1 - eq.Msq) * (k.density * (∑ i, u i ^ 2) / 2) ∧
    IsMixState eq (mixFromKinArray eq k u) ∧ (IsMixState eq (mixFromKin eq k u) ↔ eq.Msq = 1 ∨ ∀ i, u i = 0) := by
  obtain ⟨g0, g1, g2⟩ := h.pos
  have hsq : ∑ i, u i * u i = ∑ i, u i ^ 2 := Finset.sum_congr rfl fun i _ => by ring
  have hmsq : ∑ i, (k.density * u i) ^ 2 = k.density ^ 2 * ∑ i, u i ^ 2 := by
    rw [Finset.mul_sum]; exact Finset.sum_congr rfl fun i _ => by ring
  have h1 : (mixFromKin eq k u).energy - (mixFromKinArray eq k u).energy = (1 - eq.Msq) * (k.density * (∑ i, u i ^ 2) / 2) := by
    simp only [mixFromKin, mixFromKinArray, gasKinetic_eq, hsq, hmsq]
    field_simp
    ring
  have hc1 : 0 < Real.sqrt (eq.gamma * k.temperature) := Real.sqrt_pos.2 (by positivity)
  have hc2 : Real.sqrt (eq.gamma * k.temperature) ^ 2 * k.density = eq.gamma * (k.temperature * k.density) := by
    rw [Real.sq_sqrt (by positivity)]; ring
  have h2 : IsMixState eq (mixFromKinArray eq k u) := by
    refine ⟨hr, mul_pos hT hr, ?_, hc1, hc2⟩
    simp only [mixFromKinArray, kinInternalEnergy, gasKinetic_eq, h.minusOneInv]
    field_simp
  refine ⟨h1, h2, ?_⟩
  constructor
  · intro h3
    have e : (mixFromKin eq k u).energy = (mixFromKinArray eq k u).energy := by rw [h3.energy_eq, h2.energy_eq]; rfl
    rw [e, sub_self] at h1
    rcases mul_eq_zero.1 h1.symm with h4 | h4
    · left; linarith
    · right
      intro i
      have h5 : ∑ i, u i ^ 2 = 0 := by
        rcases div_eq_zero_iff.1 h4 with h6 | h6
        · rcases mul_eq_zero.1 h6 with h7 | h7
          · exact absurd h7 hr.ne'
          · exact h7
        · norm_num at h6
      have := (Finset.sum_eq_zero_iff_of_nonneg fun i _ => sq_nonneg (u i)).1 h5 i (mem_univ i)
      exact pow_eq_zero_iff (two_ne_zero) |>.1 this
  · intro h3
    have e : (mixFromKin eq k u).energy = (mixFromKinArray eq k u).energy := by
      have : (1 - eq.Msq) * (k.density * (∑ i, u i ^ 2) / 2) = 0 := by
        rcases h3 with h3 | h3
        · rw [h3]; ring
        · simp [h3]
      linarith
    exact ⟨hr, mul_pos hT hr, by rw [e, h2.energy_eq]; rfl, hc1, hc2⟩

/-- **C63 (velocity).** Changing the velocity keeps density, pressure, species and scalars and, without Mach number scaling, gives a state of the gas with this velocity. With Mach number scaling the energy is off by
`(1 - Msq)` times the change of the kinetic energy. -/
theorem mixSetVelocity_spec (eq : MixEq) (q : MixComplete d s t) (hq : IsMixState eq q) (v : Fin (d + 1) → ℝ) :
    let q' := mixSetVelocity q v
    mixVelocity q'.toMixCons = v ∧ q'.density = q.density ∧ q'.pressure = q.pressure ∧ q'.species = q.species ∧ q'.scalars = q.scalars ∧ (eq.Msq = 1 → IsMixState eq q') ∧
    q'.energy - (q.pressure / (eq.gamma - 1) + eq.Msq * ((∑ i, q'.momentum i ^ 2) / (2 * q.density))) =
      (1 - eq.Msq) * ((∑ i, q'.momentum i ^ 2) / (2 * q.density) - (∑ i, q.momentum i ^ 2) / (2 * q.density)) := by
  intro q'
  obtain ⟨hr, hp, he, hc, hc2⟩ := hq
  have key : q'.energy - (q.pressure / (eq.gamma - 1) + eq.Msq * ((∑ i, q'.momentum i ^ 2) / (2 * q.density))) =
      (1 - eq.Msq) * ((∑ i, q'.momentum i ^ 2) / (2 * q.density) - (∑ i, q.momentum i ^ 2) / (2 * q.density)) := by
    simp only [q', mixSetVelocity, gasKinetic_eq, he]
    ring
  refine ⟨?_, rfl, rfl, rfl, rfl, ?_, key⟩
  · funext i
    simp only [q', mixSetVelocity, mixVelocity]
    field_simp
  · intro hM
    refine ⟨hr, hp, ?_, hc, hc2⟩
    rw [hM, sub_self, zero_mul] at key
    have : q'.density = q.density := rfl
    have hp' : q'.pressure = q.pressure := rfl
    rw [this, hp', hM]
    linarith

/-- The pressure of a conservative state ignores the Mach number: it is the pressure of the state if and only if the scaling is one or the gas is at rest. -/
theorem mixPressureOfCons_spec (eq : MixEq) (h : eq.Valid) (q : MixComplete d s t) (hq : IsMixState eq q) :
    mixPressureOfCons eq q.toMixCons = q.pressure + (eq.Msq - 1) * (eq.gamma - 1) * ((∑ i, q.momentum i ^ 2) / (2 * q.density)) ∧
    (eq.Msq = 1 → mixPressureOfCons eq q.toMixCons = q.pressure) ∧ mixInternalEnergy eq q.toMixCons = q.pressure / (eq.gamma - 1) / q.density := by
  obtain ⟨g0, g1, g2⟩ := h.pos
  have key : mixPressureOfCons eq q.toMixCons = q.pressure + (eq.Msq - 1) * (eq.gamma - 1) * ((∑ i, q.momentum i ^ 2) / (2 * q.density)) := by
    simp only [mixPressureOfCons, gasKinetic_eq, hq.energy_eq, h.minusOne]
    field_simp
    ring
  refine ⟨key, fun hM => by rw [key, hM]; ring, ?_⟩
  simp only [mixInternalEnergy, gasKinetic_eq, hq.energy_eq]
  congr 1
  ring

/-! ## C64: isentropic change of the pressure -/

theorem sgn_sqrt_sq (x : ℝ) : (sgn x * Real.sqrt |x|) ^ 2 = |x| := by
  rw [mul_pow, Real.sq_sqrt (abs_nonneg x)]
  unfold sgn
  split_ifs with h1 h2
  · ring
  · ring
  · have : x = 0 := le_antisymm (not_lt.1 h1) (not_lt.1 h2)
    simp [this]

/-- The Mach number cancels in the density: it only depends on the pressure ratio. -/
theorem isentropic_density_aux {g a r p pn : ℝ} (hg : 1 < g) (ha : 0 < a) (hp : 0 < p) (hpn : 0 < pn) :
    r * a ^ (1 / (g - 1)) * (pn / (p * a ^ (g * (1 / (g - 1))))) ^ (1 / g) = r * (pn / p) ^ (1 / g) := by
  have g0 : 0 < g := by linarith
  have g1 : 0 < g - 1 := by linarith
  have hx : 0 < a ^ (g * (1 / (g - 1))) := Real.rpow_pos_of_pos ha _
  rw [← div_div, Real.div_rpow (by positivity) hx.le, ← Real.rpow_mul ha.le]
  have e : g * (1 / (g - 1)) * (1 / g) = 1 / (g - 1) := by field_simp
  rw [e]
  have : a ^ (1 / (g - 1)) ≠ 0 := (Real.rpow_pos_of_pos ha _).ne'
  field_simp

variable {eq : MixEq} {q : MixComplete d s t}

/-- Mach number factor of a state in terms of its total enthalpy. -/
theorem stag_factor (hg : 1 < eq.gamma) (hq : IsMixState eq q) :
    1 ≤ 1 + (eq.gamma - 1) / 2 * ((∑ i, (q.momentum i / q.density) ^ 2) / q.speedOfSound ^ 2) ∧
    q.pressure / q.density * (1 + (eq.gamma - 1) / 2 * ((∑ i, (q.momentum i / q.density) ^ 2) / q.speedOfSound ^ 2)) =
      q.pressure / q.density + (eq.gamma - 1) / eq.gamma * ((∑ i, (q.momentum i / q.density) ^ 2) / 2) := by
  have h1 := hq.density_pos
  have h2 := hq.pressure_pos
  have h3 := hq.sound_pos
  have h4 := hq.sound_sq
  have hV : 0 ≤ ∑ i, (q.momentum i / q.density) ^ 2 := Finset.sum_nonneg fun i _ => sq_nonneg _
  have g1 : 0 < eq.gamma - 1 := by linarith
  constructor
  · have : 0 ≤ (eq.gamma - 1) / 2 * ((∑ i, (q.momentum i / q.density) ^ 2) / q.speedOfSound ^ 2) := by positivity
    linarith
  · have g0 : eq.gamma ≠ 0 := by linarith
    have hc : q.speedOfSound ^ 2 = eq.gamma * q.pressure / q.density := by field_simp; linarith
    rw [hc]
    field_simp

/-- The total enthalpy of a state. -/
theorem totalEnthalpy_eq (hg : 1 < eq.gamma) (hM : eq.Msq = 1) (hq : IsMixState eq q) :
    q.totalEnthalpy = eq.gamma / (eq.gamma - 1) * (q.pressure / q.density) + (∑ i, (q.momentum i / q.density) ^ 2) / 2 := by
  have h1 := hq.density_pos
  have g1 : eq.gamma - 1 ≠ 0 := by linarith
  have hs : ∑ i, (q.momentum i / q.density) ^ 2 = (∑ i, q.momentum i ^ 2) / q.density ^ 2 := by
    rw [Finset.sum_div]; exact Finset.sum_congr rfl fun i _ => by rw [div_pow]
  rw [MixComplete.totalEnthalpy, hq.energy_eq, hM, hs]
  field_simp
  ring

/-- **C64.** For every valid gas without Mach number scaling, every state and every positive pressure: the result is a state of the gas with this pressure, of the same entropy, that moves in the first direction; the
density is `rho (p_new / p)^(1/gamma)`. Up to the stagnation pressure the total enthalpy is kept and the velocity is not negative; above it the flow is directed backwards and the total enthalpy grows. -/
theorem setIsentropic_partial (h : eq.Valid) (hM : eq.Msq = 1) (hq : IsMixState eq q) (pn : ℝ) (hpn : 0 < pn) :
    let q' := setIsentropicPressure eq q pn
    IsMixState eq q' ∧ q'.pressure = pn ∧ q'.density = q.density * (pn / q.pressure) ^ (1 / eq.gamma) ∧ pn * q.density ^ eq.gamma = q.pressure * q'.density ^ eq.gamma ∧
    (∀ i, i ≠ 0 → q'.momentum i = 0) ∧ (pn ≤ stagnationPressure eq q → q'.totalEnthalpy = q.totalEnthalpy ∧ 0 ≤ q'.momentum 0) ∧
    (stagnationPressure eq q < pn → q.totalEnthalpy < q'.totalEnthalpy ∧ q'.momentum 0 < 0) ∧
    q'.totalEnthalpy = eq.gamma / (eq.gamma - 1) * (pn / q'.density) + |q.totalEnthalpy - eq.gamma / (eq.gamma - 1) * (pn / q'.density)| ∧
    (q'.momentum 0 / q'.density) ^ 2 = 2 * |q.totalEnthalpy - eq.gamma / (eq.gamma - 1) * (pn / q'.density)| := by
  intro q'
  obtain ⟨g0, g1, g2⟩ := h.pos
  have hr := hq.density_pos
  have hp := hq.pressure_pos
  obtain ⟨ha1, hT0⟩ := stag_factor h.one_lt hq
  have hH := totalEnthalpy_eq h.one_lt hM hq
  -- the stagnation factor as the code computes it
  have hal : 1 + 1 / 2 * ((∑ i, mixVelocity q.toMixCons i * mixVelocity q.toMixCons i) / (q.speedOfSound * q.speedOfSound)) * eq.gammaMinusOne =
      1 + (eq.gamma - 1) / 2 * ((∑ i, (q.momentum i / q.density) ^ 2) / q.speedOfSound ^ 2) := by
    have : ∑ i, mixVelocity q.toMixCons i * mixVelocity q.toMixCons i = ∑ i, (q.momentum i / q.density) ^ 2 :=
      Finset.sum_congr rfl fun i _ => by simp only [mixVelocity]; ring
    rw [this, h.minusOne]; ring
  have hstag : stagnationPressure eq q = q.pressure * (1 + (eq.gamma - 1) / 2 * ((∑ i, (q.momentum i / q.density) ^ 2) / q.speedOfSound ^ 2)) ^ (eq.gamma / (eq.gamma - 1)) := rfl
  set a := 1 + (eq.gamma - 1) / 2 * ((∑ i, (q.momentum i / q.density) ^ 2) / q.speedOfSound ^ 2) with ha
  have ha0 : 0 < a := by linarith
  have hden : q'.density = q.density * (pn / q.pressure) ^ (1 / eq.gamma) := by
    simp only [q', setIsentropicPressure, hal, h.minusOneInv, h.inv]
    exact isentropic_density_aux h.one_lt ha0 hp hpn
  have hx0 : 0 < (pn / q.pressure) ^ (1 / eq.gamma) := Real.rpow_pos_of_pos (by positivity) _
  have hr' : 0 < q'.density := by rw [hden]; positivity
  have hpow : ((pn / q.pressure) ^ (1 / eq.gamma)) ^ eq.gamma = pn / q.pressure := by
    rw [← Real.rpow_mul (by positivity), one_div_mul_cancel g0.ne', Real.rpow_one]
  have hu2 : 2 * eq.gammaOverGammaMinusOne * (mixTemperature q * a - pn / q'.density) = 2 * (q.totalEnthalpy - eq.gamma / (eq.gamma - 1) * (pn / q'.density)) := by
    rw [mixTemperature, hT0, hH, h.over]
    field_simp
  set u2 := 2 * (q.totalEnthalpy - eq.gamma / (eq.gamma - 1) * (pn / q'.density)) with hu2d
  have hmom : ∀ i, q'.momentum i = q'.density * if i = 0 then sgn u2 * Real.sqrt |u2| else 0 := by
    intro i
    rw [← hu2]
    simp only [q', setIsentropicPressure, hal]
  have hsqm : ∑ i, q'.momentum i ^ 2 = q'.density ^ 2 * |u2| := by
    have : ∀ i, q'.momentum i ^ 2 = if i = 0 then q'.density ^ 2 * |u2| else 0 := by
      intro i
      rw [hmom i]
      split_ifs
      · rw [mul_pow, sgn_sqrt_sq]
      · ring
    simp only [this]
    simp
  have hen : q'.energy = pn / (eq.gamma - 1) + (∑ i, q'.momentum i ^ 2) / (2 * q'.density) := by
    have : q'.energy = pn * eq.gammaMinusOneInv + gasKinetic q'.density q'.momentum := rfl
    rw [this, gasKinetic_eq, h.minusOneInv]
    ring
  obtain ⟨c1, c2⟩ := sqrt_sound g0 hpn hr'
  have hst : IsMixState eq q' := ⟨hr', hpn, by rw [hen, hM, one_mul]; rfl, c1, c2⟩
  have hH' : q'.totalEnthalpy = eq.gamma / (eq.gamma - 1) * (pn / q'.density) + |u2| / 2 := by
    have e := totalEnthalpy_eq h.one_lt hM hst
    have e2 : ∑ i, (q'.momentum i / q'.density) ^ 2 = (∑ i, q'.momentum i ^ 2) / q'.density ^ 2 := by
      rw [Finset.sum_div]; exact Finset.sum_congr rfl fun i _ => by rw [div_pow]
    rw [e, e2, hsqm]
    have : q'.pressure = pn := rfl
    rw [this]
    field_simp
  have habs : |u2| = 2 * |q.totalEnthalpy - eq.gamma / (eq.gamma - 1) * (pn / q'.density)| := by
    rw [hu2d, abs_mul, abs_of_pos (by norm_num : (0 : ℝ) < 2)]
  -- comparison with the stagnation pressure
  have hTn : pn / q'.density = q.pressure / q.density * (pn / q.pressure) ^ ((eq.gamma - 1) / eq.gamma) := by
    have e : (pn / q.pressure) ^ ((eq.gamma - 1) / eq.gamma) * (pn / q.pressure) ^ (1 / eq.gamma) = pn / q.pressure := by
      rw [← Real.rpow_add (by positivity), ← add_div, sub_add_cancel, div_self g0.ne', Real.rpow_one]
    rw [div_eq_iff hr'.ne', hden]
    have : q.pressure / q.density * (pn / q.pressure) ^ ((eq.gamma - 1) / eq.gamma) * (q.density * (pn / q.pressure) ^ (1 / eq.gamma)) =
        q.pressure / q.density * q.density * ((pn / q.pressure) ^ ((eq.gamma - 1) / eq.gamma) * (pn / q.pressure) ^ (1 / eq.gamma)) := by ring
    rw [this, e]
    field_simp
  have hcmp : pn ≤ stagnationPressure eq q ↔ 0 ≤ u2 := by
    have e1 : u2 = 2 * (eq.gamma / (eq.gamma - 1)) * (q.pressure / q.density) * (a - (pn / q.pressure) ^ ((eq.gamma - 1) / eq.gamma)) := by
      rw [← hu2, hTn, mixTemperature, h.over]; ring
    have hpos : 0 < 2 * (eq.gamma / (eq.gamma - 1)) * (q.pressure / q.density) := by positivity
    have e2 : ((pn / q.pressure) ^ ((eq.gamma - 1) / eq.gamma)) ^ (eq.gamma / (eq.gamma - 1)) = pn / q.pressure := by
      rw [← Real.rpow_mul (by positivity)]
      have : (eq.gamma - 1) / eq.gamma * (eq.gamma / (eq.gamma - 1)) = 1 := by field_simp
      rw [this, Real.rpow_one]
    rw [e1, mul_nonneg_iff_of_pos_left hpos, sub_nonneg, hstag, ← Real.rpow_le_rpow_iff (Real.rpow_nonneg (by positivity) _) ha0.le (div_pos g0 g1), e2, div_le_iff₀ hp, mul_comm q.pressure]
  have hm0 : q'.momentum 0 = q'.density * (sgn u2 * Real.sqrt |u2|) := by rw [hmom 0, if_pos rfl]
  refine ⟨hst, rfl, hden, ?_, ?_, ?_, ?_, ?_, ?_⟩
  · rw [hden, Real.mul_rpow hr.le hx0.le, hpow]
    field_simp
  · intro i hi
    rw [hmom i, if_neg hi, mul_zero]
  · intro hle
    have h2 := hcmp.1 hle
    refine ⟨?_, ?_⟩
    · rw [hH', abs_of_nonneg h2, hu2d]; ring
    · rw [hm0]
      refine mul_nonneg hr'.le (mul_nonneg ?_ (Real.sqrt_nonneg _))
      unfold sgn
      split_ifs with h3 h4
      · norm_num
      · exact absurd h4 (not_lt.2 h2)
      · exact le_rfl
  · intro hlt
    have h2 : u2 < 0 := by
      by_contra hc
      exact absurd (hcmp.2 (not_lt.1 hc)) (not_le.2 hlt)
    refine ⟨?_, ?_⟩
    · rw [hH', abs_of_neg h2, hu2d]
      rw [hu2d] at h2
      linarith
    · rw [hm0]
      have : sgn u2 = -1 := by unfold sgn; rw [if_neg (by linarith), if_pos h2]
      rw [this]
      have : 0 < Real.sqrt |u2| := Real.sqrt_pos.2 (abs_pos.2 h2.ne)
      nlinarith [mul_pos hr' this]
  · rw [hH', habs]; ring
  · rw [hm0, mul_div_cancel_left₀ _ hr'.ne', sgn_sqrt_sq, habs]

/-- The density changes unless the pressure stays the same. -/
theorem isentropic_density_ne {g r p pn : ℝ} (hg : 1 < g) (hr : 0 < r) (hp : 0 < p) (hpn : 0 < pn) (hne : pn ≠ p) : r * (pn / p) ^ (1 / g) ≠ r := by
  intro h
  have h1 : (pn / p) ^ (1 / g) = 1 := mul_left_cancel₀ hr.ne' (by rw [h, mul_one])
  have h2 : ((pn / p) ^ (1 / g)) ^ g = 1 := by rw [h1, Real.one_rpow]
  rw [← Real.rpow_mul (by positivity), one_div_mul_cancel (by linarith), Real.rpow_one, div_eq_one_iff_eq hp.ne'] at h2
  exact hne h2

/-- **C64 is false for the composition.** The partial densities are copied although the density changes: for every state and every other pressure, each mass fraction that is not zero changes. -/
theorem setIsentropic_species_wrong (h : eq.Valid) (hM : eq.Msq = 1) (hq : IsMixState eq q) (pn : ℝ) (hpn : 0 < pn) (hne : pn ≠ q.pressure) (i : Fin s) (hi : q.species i ≠ 0) :
    let q' := setIsentropicPressure eq q pn
    q'.species i / q'.density ≠ q.species i / q.density ∧ q'.species i / q'.density = q.species i / q.density / (pn / q.pressure) ^ (1 / eq.gamma) := by
  intro q'
  have hd : q'.density = q.density * (pn / q.pressure) ^ (1 / eq.gamma) := (setIsentropic_partial h hM hq pn hpn).2.2.1
  have hr' : 0 < q'.density := (setIsentropic_partial h hM hq pn hpn).1.density_pos
  have hs : q'.species i = q.species i := rfl
  constructor
  · intro he
    rw [hs, div_eq_div_iff hr'.ne' hq.density_pos.ne'] at he
    have := mul_left_cancel₀ hi he
    exact isentropic_density_ne h.one_lt hq.density_pos hq.pressure_pos hpn hne (by rw [← hd, this])
  · rw [hs, hd, div_div]

/-! ## C65: isentropic expansion -/

/-- **C65, what holds.** The expanded state has the wanted pressure and the isentropic density. -/
theorem isentropicExpansion_partial (h : eq.Valid) (hM : eq.Msq = 1) (hq : IsMixState eq q) (pn eff : ℝ) (hpn : 0 < pn) :
    let q' := isentropicExpansion eq q pn eff
    q'.pressure = pn ∧ q'.density = q.density * (pn / q.pressure) ^ (1 / eq.gamma) := by
  intro q'
  have hrest : IsMixState eq ({ q with momentum := fun _ => 0, energy := q.energy - gasKinetic q.density q.momentum } : MixComplete d s t) := by
    refine ⟨hq.1, hq.2, ?_, hq.4, hq.5⟩
    simp [gasKinetic_eq, hq.energy_eq, hM]
  exact ⟨rfl, (setIsentropic_partial h hM hrest pn hpn).2.2.1⟩

/-- **C65 is false.** For every state, every other pressure and every non-negative efficiency: the kinetic energy of the isentropic acceleration is counted in the energy and then the velocity is replaced, so the result is not a state of the gas;
its energy is too large by the density times the difference of the static enthalpies. -/
theorem isentropicExpansion_wrong (h : eq.Valid) (hM : eq.Msq = 1) (hq : IsMixState eq q) (pn eff : ℝ) (hpn : 0 < pn) (hne : pn ≠ q.pressure) :
    let q' := isentropicExpansion eq q pn eff
    ¬ IsMixState eq q' ∧ pn < (mixCompleteArray eq q'.toMixCons).pressure ∧
    q'.energy = pn / (eq.gamma - 1) + (∑ i, q'.momentum i ^ 2) / (2 * q'.density) + q'.density * (eq.gamma / (eq.gamma - 1) * |q.pressure / q.density - pn / q'.density|) := by
  intro q'
  obtain ⟨g0, g1, g2⟩ := h.pos
  set r : MixComplete d s t := { q with momentum := fun _ => 0, energy := q.energy - gasKinetic q.density q.momentum } with hr
  have hrest : IsMixState eq r := by
    refine ⟨hq.1, hq.2, ?_, hq.4, hq.5⟩
    simp [r, gasKinetic_eq, hq.energy_eq, hM]
  obtain ⟨k1, k2, k3, k4, k5, k6, k7, k8, k9⟩ := setIsentropic_partial h hM hrest pn hpn
  set z := setIsentropicPressure eq r pn with hz
  have hHr : r.totalEnthalpy = eq.gamma / (eq.gamma - 1) * (q.pressure / q.density) := by
    rw [totalEnthalpy_eq h.one_lt hM hrest]; simp [r]
  have hzd : 0 < z.density := k1.density_pos
  have hqd : q'.density = z.density := rfl
  have hzk : ∑ i, z.momentum i ^ 2 = z.momentum 0 ^ 2 := by
    rw [Finset.sum_eq_single 0 (fun i _ hi => by rw [k5 i hi]; ring) (by simp)]
  have hen : q'.energy = z.energy + gasKinetic z.density q'.momentum := rfl
  have hfac : |r.totalEnthalpy - eq.gamma / (eq.gamma - 1) * (pn / z.density)| = eq.gamma / (eq.gamma - 1) * |q.pressure / q.density - pn / z.density| := by
    rw [hHr, ← mul_sub, abs_mul, abs_of_pos (div_pos g0 g1)]
  have key : q'.energy = pn / (eq.gamma - 1) + (∑ i, q'.momentum i ^ 2) / (2 * q'.density) + q'.density * (eq.gamma / (eq.gamma - 1) * |q.pressure / q.density - pn / q'.density|) := by
    rw [hen, k1.energy_eq, hM, gasKinetic_eq, k2, hzk, hqd, ← hfac]
    have e : z.momentum 0 ^ 2 = z.density ^ 2 * (2 * |r.totalEnthalpy - eq.gamma / (eq.gamma - 1) * (pn / z.density)|) := by
      rw [← k9]; field_simp
    rw [e]
    field_simp
    ring
  have hdiff : 0 < |q.pressure / q.density - pn / q'.density| := by
    rw [abs_pos, sub_ne_zero]
    intro he
    rw [hqd, div_eq_div_iff hq.density_pos.ne' hzd.ne'] at he
    -- pn rho^gamma = p rho'^gamma and p rho' = pn rho force rho' = rho
    have hr0 := hq.density_pos
    have hp0 := hq.pressure_pos
    have e1 : z.density / q.density = pn / q.pressure := by rw [div_eq_div_iff hr0.ne' hp0.ne']; linarith
    have e2 : (z.density / q.density) ^ eq.gamma = pn / q.pressure := by
      have k4' : pn * q.density ^ eq.gamma = q.pressure * z.density ^ eq.gamma := k4
      rw [Real.div_rpow hzd.le hr0.le, div_eq_div_iff (Real.rpow_pos_of_pos hr0 _).ne' hp0.ne']
      linarith
    rw [e1] at e2
    set x := pn / q.pressure with hx
    have hx0 : 0 < x := by positivity
    have hx1 : x ≠ 1 := by rw [hx]; exact fun hh => hne ((div_eq_one_iff_eq hp0.ne').1 hh)
    have e3 : x ^ (eq.gamma - 1) = 1 := by
      rw [Real.rpow_sub hx0, Real.rpow_one, e2, div_self hx0.ne']
    have e4 : x = 1 := by
      have := congrArg (fun y => y ^ (1 / (eq.gamma - 1))) e3
      simp only [Real.one_rpow] at this
      rwa [← Real.rpow_mul hx0.le, mul_one_div_cancel g1.ne', Real.rpow_one] at this
    exact hx1 e4
  have hexc : 0 < q'.density * (eq.gamma / (eq.gamma - 1) * |q.pressure / q.density - pn / q'.density|) := by
    rw [hqd] at hdiff ⊢
    exact mul_pos hzd (mul_pos (div_pos g0 g1) hdiff)
  refine ⟨?_, ?_, key⟩
  · intro hst
    have e := hst.energy_eq
    have : q'.pressure = pn := rfl
    rw [hM, this] at e
    linarith
  · simp only [mixCompleteArray, gasKinetic_eq, hM, h.minusOne, one_mul]
    rw [key]
    have hcalc : (pn / (eq.gamma - 1) + (∑ i, q'.momentum i ^ 2) / (2 * q'.density) + q'.density * (eq.gamma / (eq.gamma - 1) * |q.pressure / q.density - pn / q'.density|) -
        (∑ i, q'.momentum i ^ 2) / (2 * q'.density)) * (eq.gamma - 1) = pn + q'.density * (eq.gamma / (eq.gamma - 1) * |q.pressure / q.density - pn / q'.density|) * (eq.gamma - 1) := by
      field_simp
      ring
    rw [hcalc]
    have := mul_pos hexc g1
    linarith

/-- **C65 is false.** Below the old pressure the efficiency has no effect: the expanded gas moves with the old speed, in the first direction, whatever the pressure difference is. In particular a flow in negative direction is reversed, even
for equal pressures. -/
theorem isentropicExpansion_speed (h : eq.Valid) (hM : eq.Msq = 1) (hq : IsMixState eq q) (pn eff : ℝ) (hpn : 0 < pn) (hle : pn ≤ q.pressure) :
    let q' := isentropicExpansion eq q pn eff
    q'.momentum 0 / q'.density = Real.sqrt (∑ i, (q.momentum i / q.density) ^ 2) ∧ ∀ i, i ≠ 0 → q'.momentum i = 0 := by
  intro q'
  set r : MixComplete d s t := { q with momentum := fun _ => 0, energy := q.energy - gasKinetic q.density q.momentum } with hr
  have hrest : IsMixState eq r := by
    refine ⟨hq.1, hq.2, ?_, hq.4, hq.5⟩
    simp [r, gasKinetic_eq, hq.energy_eq, hM]
  obtain ⟨k1, k2, k3, k4, k5, k6, k7, k8, k9⟩ := setIsentropic_partial h hM hrest pn hpn
  have hst : stagnationPressure eq r = q.pressure := by simp [stagnationPressure, r]
  have hH := (k6 (by rw [hst]; exact hle)).1
  set z := setIsentropicPressure eq r pn with hz
  have hdiff : (r.energy + r.pressure) / r.density - (z.energy + z.pressure) / z.density = 0 := by
    have : z.totalEnthalpy = r.totalEnthalpy := hH
    unfold MixComplete.totalEnthalpy at this
    rw [this, sub_self]
  have hsq : ∑ i, mixVelocity q.toMixCons i * mixVelocity q.toMixCons i = ∑ i, (q.momentum i / q.density) ^ 2 :=
    Finset.sum_congr rfl fun i _ => by simp only [mixVelocity]; ring
  have hqm : ∀ i, q'.momentum i = if i = 0 then z.density * ((if 0 ≤ (r.energy + r.pressure) / r.density - (z.energy + z.pressure) / z.density then 1 else -1) *
      Real.sqrt (2 * eff * |(r.energy + r.pressure) / r.density - (z.energy + z.pressure) / z.density| + ∑ i, mixVelocity q.toMixCons i * mixVelocity q.toMixCons i)) else z.momentum i := fun i => rfl
  constructor
  · rw [hqm 0, if_pos rfl, hdiff, if_pos le_rfl, abs_zero, mul_zero, zero_add, one_mul, hsq]
    have : q'.density = z.density := rfl
    rw [this, mul_div_cancel_left₀ _ k1.density_pos.ne']
  · intro i hi
    rw [hqm i, if_neg hi, k5 i hi]

/-! ### The version of the cut cell boundary -/

variable {n : ℕ}

/-- **C65 (cut cell boundary), what holds.** For every gas and every moving state the expansion gives a state of the gas with the outer pressure and the isentropic density. -/
theorem gasExpansion_partial (eq : GasEq) (h : eq.Valid) (hR : 0 < eq.Rspec) (q : GasComplete n) (hq : IsGasState eq q) (pn eff : ℝ) (hpn : 0 < pn) (hu : ∃ i, q.momentum i ≠ 0) :
    ∃ q', gasIsentropicExpansion eq q pn eff = some q' ∧ IsGasState eq q' ∧ q'.pressure = pn ∧ q'.density = q.density * (pn / q.pressure) ^ (1 / eq.gamma) := by
  obtain ⟨hr, hp⟩ := And.intro hq.density_pos hq.pressure_pos
  have g0 : 0 < eq.gamma := by linarith [h.one_lt]
  have hnz : ∑ i, gasVelocity q i * gasVelocity q i ≠ 0 := by
    obtain ⟨i, hi⟩ := hu
    have : 0 < ∑ i, gasVelocity q i * gasVelocity q i :=
      Finset.sum_pos' (fun j _ => mul_self_nonneg _) ⟨i, mem_univ i, mul_self_pos.2 (div_ne_zero hi hr.ne')⟩
    exact this.ne'
  have hx : 0 < (pn / q.pressure) ^ ((eq.gamma - 1) / eq.gamma) := Real.rpow_pos_of_pos (by positivity) _
  have hd : pn / ((pn / q.pressure) ^ ((eq.gamma - 1) / eq.gamma) * (q.pressure / q.density / eq.Rspec)) / eq.Rspec = q.density * (pn / q.pressure) ^ (1 / eq.gamma) := by
    have e : (pn / q.pressure) ^ ((eq.gamma - 1) / eq.gamma) * (pn / q.pressure) ^ (1 / eq.gamma) = pn / q.pressure := by
      rw [← Real.rpow_add (by positivity), ← add_div, sub_add_cancel, div_self g0.ne', Real.rpow_one]
    rw [div_div, div_eq_iff (by positivity)]
    have : q.density * (pn / q.pressure) ^ (1 / eq.gamma) * ((pn / q.pressure) ^ ((eq.gamma - 1) / eq.gamma) * (q.pressure / q.density / eq.Rspec) * eq.Rspec) =
        ((pn / q.pressure) ^ ((eq.gamma - 1) / eq.gamma) * (pn / q.pressure) ^ (1 / eq.gamma)) * (q.density * (q.pressure / q.density / eq.Rspec) * eq.Rspec) := by ring
    rw [this, e]
    field_simp
  simp only [gasIsentropicExpansion]
  rw [if_pos ⟨hr, hp, hR⟩, if_neg hnz]
  refine ⟨_, rfl, (gas_prim_roundtrip eq h _ ?_ hpn).1, rfl, hd⟩
  show 0 < pn / _ / _
  rw [hd]
  have : 0 < (pn / q.pressure) ^ (1 / eq.gamma) := Real.rpow_pos_of_pos (by positivity) _
  positivity

/-- **C65 is false (cut cell boundary).** A gas at rest is not expanded at all (division by zero). For a moving gas the velocity is divided by the square of the old speed instead of the old speed: the new speed times the old speed, not the new speed,
is the one of the energy balance. For equal pressures the flow is stopped. -/
theorem gasExpansion_wrong (eq : GasEq) (q : GasComplete n) (pn eff : ℝ) (heff : 0 ≤ eff) :
    ((∀ i, q.momentum i = 0) → gasIsentropicExpansion eq q pn eff = none) ∧
    (∀ q', gasIsentropicExpansion eq q pn eff = some q' → q'.density ≠ 0 →
      let h := fun (p r : ℝ) => (1 + eq.gammaMinus1Inv) * (p / r)
      (h q.pressure q.density = h pn q'.density → ∀ i, q'.momentum i = 0) ∧
      (h q.pressure q.density ≠ h pn q'.density → (∑ i, (q'.momentum i / q'.density) ^ 2) * ∑ i, (q.momentum i / q.density) ^ 2 =
        2 * eff * |h q.pressure q.density - h pn q'.density| + ∑ i, (q.momentum i / q.density) ^ 2)) := by
  constructor
  · intro h0
    simp only [gasIsentropicExpansion]
    split_ifs with h1 h2
    · rfl
    · exact absurd (by simp [gasVelocity, h0]) h2
    · rfl
  · intro q' hq' hd h
    simp only [gasIsentropicExpansion] at hq'
    split_ifs at hq' with h1 h2
    obtain rfl := Option.some.inj hq'
    simp only [gasFromPrim] at hd ⊢
    set rn := pn / ((pn / q.pressure) ^ ((eq.gamma - 1) / eq.gamma) * (q.pressure / q.density / eq.Rspec)) / eq.Rspec with hrn
    have e1 : q.pressure * (1 + eq.gammaMinus1Inv) / q.density - pn * (1 + eq.gammaMinus1Inv) / rn = h q.pressure q.density - h pn rn := by
      simp only [h]; ring
    rw [e1]
    set D := h q.pressure q.density - h pn rn with hD
    set V := ∑ i, gasVelocity q i * gasVelocity q i with hV
    have hV' : ∑ i, (q.momentum i / q.density) ^ 2 = V := Finset.sum_congr rfl fun i _ => by simp only [gasVelocity]; ring
    have hV0 : 0 ≤ V := Finset.sum_nonneg fun i _ => mul_self_nonneg _
    constructor
    · intro he i
      have : D = 0 := by rw [hD, he, sub_self]
      simp [this, sgn]
    · intro hne
      have hDn : D ≠ 0 := sub_ne_zero.2 hne
      rw [hV']
      have hsg : sgn D ^ 2 = 1 := by
        unfold sgn
        split_ifs with h3 h4
        · norm_num
        · norm_num
        · exact absurd (le_antisymm (not_lt.1 h3) (not_lt.1 h4)) hDn
      have e2 : ∀ i, (rn * (sgn D * Real.sqrt (eff * |D| * 2 + V) / V * gasVelocity q i) / rn) ^ 2 = (eff * |D| * 2 + V) / V ^ 2 * (gasVelocity q i * gasVelocity q i) := fun i => by
        rw [mul_div_cancel_left₀ _ hd, mul_pow, div_pow, mul_pow, hsg, one_mul, Real.sq_sqrt (by positivity)]
        ring
      simp only [e2]
      rw [← Finset.mul_sum, ← hV]
      field_simp

/-! ## Concrete cases -/

/-- Air-like constants, a moving state with one species and a smaller and a larger pressure meet the hypotheses. -/
example : ∃ q : MixComplete 1 1 0, IsMixState (computeConstants 287 (7 / 5)) q ∧ q.Fractions ∧ q.momentum 0 ≠ 0 ∧ q.species 0 ≠ 0 ∧ q.pressure = 10 := by
  refine ⟨mixFromPrim (computeConstants 287 (7 / 5)) ⟨2, ![1, 3], 10, fun _ => 1 / 4, fun _ => 0⟩,
    (mix_prim_roundtrip _ (computeConstants_valid 287 (7 / 5) (by norm_num) (by norm_num)).1 _ (by norm_num) (by norm_num)).1, ⟨fun i => ?_, ?_⟩, ?_, ?_, rfl⟩ <;> norm_num [mixFromPrim]

end Fub
