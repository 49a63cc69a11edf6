import Verif.Spec.Gas
import Mathlib.Tactic.Ring
import Mathlib.Tactic.Linarith
import Mathlib.Tactic.FieldSimp
import Mathlib.Tactic.Positivity
import Mathlib.Tactic.NormNum
import Mathlib.Tactic.LinearCombination
import Mathlib.Data.Fin.VecNotation
import Mathlib.Tactic.FinCases
import Mathlib.Algebra.BigOperators.Field

/-! C35, C36: perfect gas conversions, rotation, reflection. -/

namespace Fub
open Finset
variable {d : ℕ}

/-! ### C35 -/

theorem GasEq.Valid.inv_eq {eq : GasEq} (h : eq.Valid) : eq.gammaMinus1Inv = 1 / (eq.gamma - 1) := by
  have := h.one_lt
  rw [eq_div_iff (by linarith)]; exact h.inv

theorem GasEq.Valid.inv_pos {eq : GasEq} (h : eq.Valid) : 0 < eq.gammaMinus1Inv := by
  have := h.one_lt
  rw [h.inv_eq]; apply one_div_pos.2; linarith

theorem gasEq_new_valid (R g : ℝ) (h : 1 < g) : (GasEq.new R g).Valid := by
  refine ⟨h, ?_, rfl, rfl⟩
  simp only [GasEq.new]
  have : g - 1 ≠ 0 := by linarith
  field_simp

theorem gasKinetic_eq (r : ℝ) (m : Fin d → ℝ) : gasKinetic r m = (∑ i, m i ^ 2) / (2 * r) := by
  simp only [gasKinetic, ← sq]
  rw [mul_comm 2 r, ← div_div, div_right_comm]; ring

/-- The root chosen by `sqrt` is the positive sound speed. -/
theorem sqrt_sound {g p r : ℝ} (hg : 0 < g) (hp : 0 < p) (hr : 0 < r) :
    0 < Real.sqrt (g * p / r) ∧ Real.sqrt (g * p / r) ^ 2 * r = g * p := by
  have h : 0 < g * p / r := by positivity
  refine ⟨Real.sqrt_pos.2 h, ?_⟩
  rw [Real.sq_sqrt h.le]; field_simp

/-- **C35 (primitive to complete).** For every rank, every valid equation and all positive densities and pressures, `CompleteFromPrim` makes a
thermodynamic state with positive energy whose density, velocity and pressure are the given ones; the array version and the unmasked lanes
of the masked version compute the same state and masked-out lanes are zero. -/
theorem gas_prim_roundtrip (eq : GasEq) (h : eq.Valid) (w : GasPrim d) (hr : 0 < w.density) (hp : 0 < w.pressure) :
    IsGasState eq (gasFromPrim eq w) ∧ 0 < (gasFromPrim eq w).energy ∧ gasPrim (gasFromPrim eq w) = w ∧
    gasFromPrimArray eq w = gasFromPrim eq w ∧ gasFromPrimMasked eq w true = gasFromPrim eq w ∧
    gasFromPrimMasked eq w false = ⟨0, fun _ => 0, 0, 0, 0⟩ := by
  have hg := h.one_lt
  have hs := sqrt_sound (show 0 < eq.gamma by linarith) hp hr
  have hst : IsGasState eq (gasFromPrim eq w) := by
    refine ⟨hr, hp, ?_, hs.1, hs.2⟩
    simp only [gasFromPrim]
    rw [gasKinetic_eq, h.inv_eq]; ring
  refine ⟨hst, ?_, ?_, ?_, ?_, ?_⟩
  · rw [hst.energy_eq]
    have : 0 < (gasFromPrim eq w).pressure / (eq.gamma - 1) := div_pos hp (by linarith)
    have : 0 ≤ (∑ i, (gasFromPrim eq w).momentum i ^ 2) / (2 * (gasFromPrim eq w).density) :=
      div_nonneg (sum_nonneg fun i _ => sq_nonneg _) (by have := hst.density_pos; linarith)
    linarith
  · ext i
    · rfl
    · simp only [gasPrim, gasVelocity, gasFromPrim]; field_simp
    · rfl
  · simp only [gasFromPrimArray, gasFromPrim, h.arr, h.invArr]
  · simp [gasFromPrimMasked, gasFromPrim, h.arr, h.invArr]
  · simp [gasFromPrimMasked]

/-- **C35 (complete to conservative and back).** Dropping pressure and sound speed of a thermodynamic state and calling `CompleteFromCons` gives back
this state, in the scalar version without a failed assertion, in the array version and in unmasked lanes; masked-out lanes are zero. -/
theorem gas_cons_roundtrip (eq : GasEq) (h : eq.Valid) (q : GasComplete d) (hq : IsGasState eq q) :
    gasComplete eq q.cons = some q ∧ gasCompleteArray eq q.cons = q ∧ gasCompleteMasked eq q.cons true = q ∧
    gasCompleteMasked eq q.cons false = ⟨0, fun _ => 0, 0, 0, 0⟩ := by
  have hg := h.one_lt
  have hr := hq.density_pos
  have hp := hq.pressure_pos
  have he := hq.energy_eq
  have hg0 : eq.gamma - 1 ≠ 0 := by linarith
  have hP : (q.energy - gasKinetic q.density q.momentum) / eq.gammaMinus1Inv = q.pressure := by
    rw [gasKinetic_eq, he, h.inv_eq]; field_simp; ring
  have hK : gasKinetic q.density q.momentum < q.energy := by
    rw [gasKinetic_eq, he]
    have : 0 < q.pressure / (eq.gamma - 1) := div_pos hp (by linarith)
    linarith
  have hs : Real.sqrt (eq.gamma * q.pressure / q.density) = q.speedOfSound := by
    rw [← hq.sound_sq, mul_div_assoc, div_self hr.ne', mul_one]
    exact Real.sqrt_sq hq.sound_pos.le
  refine ⟨?_, ?_, ?_, ?_⟩
  · simp only [gasComplete, GasComplete.cons, if_pos hK, hP, hs, if_pos (And.intro hp hr)]
  · simp only [gasCompleteArray, GasComplete.cons, hP, h.arr, hs]
  · have e : gasKineticMasked q.density q.momentum true = gasKinetic q.density q.momentum := by
      simp [gasKineticMasked, gasKinetic, hr]
    simp only [gasCompleteMasked, GasComplete.cons, hr, decide_true, Bool.and_true, if_true, e, hP, h.arr, hs]
  · simp [gasCompleteMasked]

/-- **C35 (admissible conservative states).** `CompleteFromCons` succeeds exactly on conservative states with positive density and positive internal
energy, and then returns the thermodynamic state with these conserved quantities. -/
theorem gas_complete_iff (eq : GasEq) (h : eq.Valid) (u : GasCons d) (hr : 0 < u.density) :
    (u.Admissible ↔ ∃ q, gasComplete eq u = some q) ∧ ∀ q, gasComplete eq u = some q → IsGasState eq q ∧ q.cons = u := by
  have hi := h.inv_pos
  have hg := h.one_lt
  have hk : gasKinetic u.density u.momentum < u.energy ↔ u.Admissible := by
    rw [gasKinetic_eq, div_lt_iff₀ (by linarith)]
    simp only [GasCons.Admissible, hr, true_and]
    constructor <;> intro h <;> linarith
  refine ⟨⟨fun ha => ?_, fun ⟨q, hq⟩ => ?_⟩, fun q hq => ?_⟩
  · have hK := hk.2 ha
    have hp : 0 < (u.energy - gasKinetic u.density u.momentum) / eq.gammaMinus1Inv := div_pos (by linarith) hi
    exact ⟨_, by simp only [gasComplete, if_pos hK, if_pos (And.intro hp hr)]; rfl⟩
  · by_contra hc
    have hK : ¬ gasKinetic u.density u.momentum < u.energy := fun hh => hc (hk.1 hh)
    simp only [gasComplete, if_neg hK] at hq
    cases hq
  · simp only [gasComplete] at hq
    split at hq
    · split at hq
      · rename_i h1 h2
        obtain rfl := (Option.some.inj hq).symm
        have hs := sqrt_sound (show 0 < eq.gamma by linarith) h2.1 hr
        refine ⟨⟨hr, h2.1, ?_, hs.1, hs.2⟩, rfl⟩
        simp only [gasKinetic_eq, h.inv_eq]
        have : eq.gamma - 1 ≠ 0 := by linarith
        field_simp; ring
      · cases hq
    · cases hq

/-- The members can disagree: a user who changes only `gamma` after construction gets sound speeds and pressures of two different gases, so that
the complete state is no thermodynamic state of the gas with the new `gamma`. -/
theorem gas_gamma_only_fails : ∃ (eq : GasEq) (w : GasPrim 1), eq = { GasEq.new 287 (7 / 5) with gamma := 5 / 3 } ∧ 0 < w.density ∧ 0 < w.pressure ∧
    ¬ IsGasState eq (gasFromPrim eq w) := by
  refine ⟨_, ⟨1, fun _ => 0, 1⟩, rfl, by norm_num, by norm_num, fun h => ?_⟩
  have := h.energy_eq
  simp only [gasFromPrim, gasKinetic, GasEq.new] at this
  norm_num at this

example : (GasEq.new 287 (7 / 5)).Valid := gasEq_new_valid _ _ (by norm_num)
/-- A moving two-dimensional state meets the hypotheses of the conversion theorems. -/
example : IsGasState (GasEq.new 287 (7 / 5)) (⟨2, ![2, -4], 10, 2, Real.sqrt (7 / 5)⟩ : GasComplete 2) := by
  refine ⟨by norm_num, by norm_num, ?_, by norm_num, ?_⟩
  · simp [GasEq.new, Fin.sum_univ_two]; norm_num
  · simp only [GasEq.new]; rw [Real.sq_sqrt (by norm_num)]

/-- **Temperature and Mach number.** `p = ρ R T`, and the Mach number times the sound speed is the velocity magnitude. -/
theorem gas_temperature_mach (eq : GasEq) (q : GasComplete d) (hq : IsGasState eq q) (hR : eq.Rspec ≠ 0) :
    q.pressure = q.density * eq.Rspec * gasTemperature eq q ∧ 0 ≤ gasMach q ∧
    (gasMach q * q.speedOfSound) ^ 2 * q.density ^ 2 = ∑ i, q.momentum i ^ 2 := by
  have hr := hq.density_pos
  have hs := hq.sound_pos
  refine ⟨?_, ?_, ?_⟩
  · simp only [gasTemperature]; field_simp
  · exact div_nonneg (Real.sqrt_nonneg _) hs.le
  · simp only [gasMach, div_mul_cancel₀ _ hs.ne']
    rw [Real.sq_sqrt (sum_nonneg fun i _ => mul_self_nonneg _), sum_mul]
    refine sum_congr rfl fun i _ => ?_
    simp only [gasVelocity]; field_simp

/-! ### C36 -/

theorem reflectVec_dot (n m : Fin d → ℝ) (h : IsUnit' n) : ∑ i, reflectVec n m i * n i = -∑ i, m i * n i := by
  simp only [reflectVec, sub_mul, sum_sub_distrib]
  have : ∑ x, 2 * ((∑ j, m j * n j) * n x) * n x = 2 * (∑ j, m j * n j) * ∑ x, n x ^ 2 := by
    rw [mul_sum]; exact sum_congr rfl fun i _ => by ring
  rw [this, h]; ring

theorem reflectVec_twice (n m : Fin d → ℝ) (h : IsUnit' n) : reflectVec n (reflectVec n m) = m := by
  funext i
  rw [reflectVec, reflectVec_dot n m h]
  simp only [reflectVec]; ring

theorem reflectVec_sq (n m : Fin d → ℝ) (h : IsUnit' n) : ∑ i, reflectVec n m i ^ 2 = ∑ i, m i ^ 2 := by
  have e : ∀ i, reflectVec n m i ^ 2 = m i ^ 2 - 4 * (∑ j, m j * n j) * (m i * n i) + 4 * (∑ j, m j * n j) ^ 2 * n i ^ 2 := fun i => by
    simp only [reflectVec]; ring
  simp only [e, sum_add_distrib, sum_sub_distrib, ← mul_sum]
  rw [h]; ring

/-- **C36 (reflection).** For every rank, every unit normal and every state: reflecting twice is the identity; density, energy, pressure and sound
speed are kept; the normal momentum changes sign while momentum components orthogonal to the normal are kept; the kinetic energy is kept, so a
thermodynamic state stays one. The conservative and the primitive versions reflect the same quantities. -/
theorem gas_reflect (eq : GasEq) (n : Fin d → ℝ) (hn : IsUnit' n) (q : GasComplete d) :
    gasReflect n (gasReflect n q) = q ∧
    (gasReflect n q).density = q.density ∧ (gasReflect n q).energy = q.energy ∧ (gasReflect n q).pressure = q.pressure ∧
    (gasReflect n q).speedOfSound = q.speedOfSound ∧
    ∑ i, (gasReflect n q).momentum i * n i = -∑ i, q.momentum i * n i ∧
    (∀ t : Fin d → ℝ, ∑ i, n i * t i = 0 → ∑ i, (gasReflect n q).momentum i * t i = ∑ i, q.momentum i * t i) ∧
    (IsGasState eq q → IsGasState eq (gasReflect n q)) ∧
    (gasReflect n q).cons = gasReflectCons n q.cons ∧
    gasPrim (gasReflect n q) = gasReflectPrim n (gasPrim q) := by
  refine ⟨?_, rfl, rfl, rfl, rfl, reflectVec_dot _ _ hn, fun t ht => ?_, fun hq => ?_, rfl, ?_⟩
  · simp only [gasReflect, reflectVec_twice _ _ hn]
  · simp only [gasReflect, reflectVec, sub_mul, sum_sub_distrib]
    have : ∑ x, 2 * ((∑ j, q.momentum j * n j) * n x) * t x = 2 * (∑ j, q.momentum j * n j) * ∑ x, n x * t x := by
      rw [mul_sum]; exact sum_congr rfl fun i _ => by ring
    rw [this, ht]; ring
  · refine ⟨hq.density_pos, hq.pressure_pos, ?_, hq.sound_pos, hq.sound_sq⟩
    simp only [gasReflect, reflectVec_sq _ _ hn]
    exact hq.energy_eq
  · ext i
    · rfl
    · simp only [gasPrim, gasReflect, gasReflectPrim, gasVelocity, reflectVec]
      rw [sub_div]
      congr 1
      rw [show ∑ j, q.momentum j / q.density * n j = (∑ j, q.momentum j * n j) / q.density by
        rw [sum_div]; exact sum_congr rfl fun i _ => by ring]
      ring
    · rfl

/-- **C36 (wall).** With the reflection about the coordinate normal of direction `dir`, the mass and energy fluxes of a state and its mirror image
cancel and the momentum fluxes in direction `dir` agree: any flux that is the mean of both sides has no mass and no energy flux through the wall. -/
theorem gas_reflect_wall (q : GasComplete d) (dir : Fin d) :
    let n : Fin d → ℝ := fun i => if i = dir then 1 else 0
    let r := gasReflect n q
    IsUnit' n ∧ (gasFluxArray r dir).density = -(gasFluxArray q dir).density ∧ (gasFluxArray r dir).energy = -(gasFluxArray q dir).energy ∧
    (gasFluxArray r dir).momentum dir = (gasFluxArray q dir).momentum dir ∧
    ∀ i, i ≠ dir → (gasFluxArray r dir).momentum i = -(gasFluxArray q dir).momentum i := by
  intro n r
  have hn : IsUnit' n := by simp [IsUnit', n, ite_pow]
  have hs : ∑ j, q.momentum j * n j = q.momentum dir := by simp [n]
  have hm : r.momentum dir = -q.momentum dir := by simp only [r, gasReflect, reflectVec, hs]; simp [n]; ring
  have ho : ∀ i, i ≠ dir → r.momentum i = q.momentum i := fun i hi => by simp [r, gasReflect, reflectVec, n, hi]
  refine ⟨hn, ?_, ?_, ?_, fun i hi => ?_⟩
  · simp [gasFluxArray, hm]
  · simp only [gasFluxArray, hm]
    show -q.momentum dir / q.density * (q.energy + q.pressure) = _
    ring
  · simp only [gasFluxArray, hm, if_true]
    show -q.momentum dir / q.density * -q.momentum dir + q.pressure = _
    ring
  · simp only [gasFluxArray, hm, ho i hi, if_neg hi]
    show -q.momentum dir / q.density * _ + 0 = _
    ring

/-- **C36 (rotation).** Rotating by a matrix with orthonormal columns keeps the kinetic energy, hence maps thermodynamic states to thermodynamic states,
and rotating by the transpose undoes it. -/
theorem gas_rotate (eq : GasEq) (R : Fin d → Fin d → ℝ) (hR : IsOrtho R) (q : GasComplete d) :
    gasRotate (fun i j => R j i) (gasRotate R q) = q ∧ ∑ i, (gasRotate R q).momentum i ^ 2 = ∑ i, q.momentum i ^ 2 ∧
    (IsGasState eq q → IsGasState eq (gasRotate R q)) ∧ (gasRotate R q).cons = gasRotateCons R q.cons := by
  have hsq : ∑ i, rotateVec R q.momentum i ^ 2 = ∑ i, q.momentum i ^ 2 := by
    have e : ∀ i, rotateVec R q.momentum i ^ 2 = ∑ j, ∑ k, (q.momentum j * q.momentum k) * (R i j * R i k) := fun i => by
      simp only [rotateVec, sq, sum_mul_sum]
      exact sum_congr rfl fun j _ => sum_congr rfl fun k _ => by ring
    simp only [e]
    rw [sum_comm]
    refine sum_congr rfl fun j _ => ?_
    rw [sum_comm]
    simp only [← mul_sum, hR j]
    simp [sq]
  refine ⟨?_, hsq, fun hq => ⟨hq.density_pos, hq.pressure_pos, ?_, hq.sound_pos, hq.sound_sq⟩, rfl⟩
  · have : rotateVec (fun i j => R j i) (rotateVec R q.momentum) = q.momentum := by
      funext i
      simp only [rotateVec, mul_sum]
      rw [sum_comm]
      have : ∀ k, ∑ j, R j i * (R j k * q.momentum k) = (∑ j, R j i * R j k) * q.momentum k := fun k => by
        rw [sum_mul]; exact sum_congr rfl fun j _ => by ring
      simp only [this, hR i]
      simp
    simp only [gasRotate, this]
  · simp only [gasRotate, hsq]; exact hq.energy_eq

/-- **C36 (flux through an inclined face).** Rotating a state, evaluating the flux in a coordinate direction and rotating back is the Euler flux through
the face whose normal the rotation maps to that coordinate direction. The flux of the code is thus rotationally invariant. -/
theorem gas_rotate_flux (R : Fin d → Fin d → ℝ) (hR : IsOrtho R) (q : GasComplete d) (hr : q.density ≠ 0) (dir : Fin d) :
    gasRotateCons (fun i j => R j i) (gasFluxArray (gasRotate R q) dir) = eulerNormalFlux q (R dir) := by
  have hb : ∀ i, ∑ j, R j i * rotateVec R q.momentum j = q.momentum i := fun i => by
    have := (gas_rotate (GasEq.new 1 2) R hR q).1
    exact congrFun (congrArg GasComplete.momentum this) i
  have hu : ∑ i, q.momentum i / q.density * R dir i = rotateVec R q.momentum dir / q.density := by
    simp only [rotateVec, sum_div]; exact sum_congr rfl fun i _ => by ring
  ext i
  · simp only [gasRotateCons, gasFluxArray, gasRotate, eulerNormalFlux, hu]; field_simp
  · simp only [gasRotateCons, gasFluxArray, gasRotate, eulerNormalFlux, hu, rotateVec.eq_1 (fun i j => R j i), mul_add, sum_add_distrib]
    congr 1
    · rw [← hb i, sum_mul]
      exact sum_congr rfl fun j _ => by ring
    · simp [mul_comm]
  · simp only [gasRotateCons, gasFluxArray, gasRotate, eulerNormalFlux, hu]; ring

/-- The masked and the scalar flux agree with the array flux on every state with positive density; masked-out lanes are *not* zero but computed with
density one. -/
theorem gas_flux_versions (q : GasComplete d) (dir : Fin d) (hr : 0 < q.density) :
    gasFlux q dir = some (gasFluxArray q dir) ∧ gasFluxMasked q true dir = gasFluxArray q dir ∧
    (gasFluxMasked q false dir).density = q.momentum dir := by
  refine ⟨by simp [gasFlux, gasFluxArray, hr], by simp [gasFluxMasked, gasFluxArray, hr], rfl⟩

/-- A rotation by the angle with cosine 3/5 and a unit normal meet the hypotheses. -/
example : IsOrtho (d := 2) ![![3 / 5, 4 / 5], ![-4 / 5, 3 / 5]] := by
  intro j k; fin_cases j <;> fin_cases k <;> simp [Fin.sum_univ_two] <;> norm_num
example : IsUnit' (d := 2) ![3 / 5, 4 / 5] := by simp [IsUnit', Fin.sum_univ_two]; norm_num

end Fub
