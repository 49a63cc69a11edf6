import Verif.Model.Control
import Verif.Props.GasMix
import Mathlib.Analysis.SpecialFunctions.Trigonometric.Bounds
import Mathlib.Analysis.Real.Pi.Bounds

/-!
# C77: the control of the gas turbine
-/

namespace Fub
open Finset

/-- What a successful update did, in terms of the members of the states. -/
theorem updatePlena_eq {eq : MixEq} {o : ControlOptions} {i : ControlInput} {s s' : ControlState} (h : updatePlena eq o i s = some s') :
    let p := compressorRatio o s.rpm
    let T := 1 + (p ^ (eq.gammaMinusOne * eq.gammaInv) - 1) / o.efficiencyCompressor
    let mdot := i.fluxRho * o.areaTubeInlet + o.volumeCompressor / i.dt * (p / T - s.compressor.pressure / s.compressor.temperature)
    let netto := s'.turbine.power - s'.compressor.power
    let dErot := if p < o.targetPressure then 15 / 1000 * (1 - Real.exp (-o.mu * ((o.targetPressure - p) / o.targetPressure))) * netto else 0
    let Ieff := 2 * (Real.pi * Real.pi) * o.inertialMoment
    s'.compressor.pressure = p ∧ s'.compressor.temperature = T ∧
    s'.compressor.massFlowIn = (1 - i.dt) * s.compressor.massFlowIn + i.dt * mdot ∧
    s'.compressor.massFlowOut = (1 - i.dt) * s.compressor.massFlowOut + i.dt * (i.fluxRho * o.areaTubeInlet) ∧
    s'.compressor.power = (1 - i.dt) * s.compressor.power +
      i.dt * (mdot * (1 / 2 * (s.compressor.temperature + T) - 1) * eq.gammaOverGammaMinusOne / o.efficiencyCompressor) ∧
    s'.fuelConsumption = s.fuelConsumption + i.fluxSpec * o.areaTubeInlet * i.dt ∧
    s'.fuelRate = (1 - i.dt) * s.fuelRate + i.dt * (i.fluxSpec * o.areaTubeInlet) ∧
    s'.turbine.pressure = i.turbine.pressure ∧ s'.turbine.temperature = i.turbine.temperature ∧
    s'.turbine.massFlowIn = (1 - i.dt) * s.turbine.massFlowIn + i.dt * (i.fluxRhoLast * o.areaTubeOutlet) ∧
    s'.turbine.massFlowOut = (1 - i.dt) * s.turbine.massFlowOut + i.dt * i.mdotTurbine ∧
    s'.turbine.power = i.mdotTurbine * eq.gammaOverGammaMinusOne * o.efficiencyTurbine * (1 / 2 * (s.turbine.temperature + i.turbine.temperature)) *
      (1 - (1 / 2 * (s.turbine.pressure + i.turbine.pressure)) ^ (-(eq.gammaMinusOne * eq.gammaInv))) ∧
    0 ≤ (Ieff * s.rpm * s.rpm + dErot * i.dt) / Ieff ∧
    s'.rpm = min (max (Real.sqrt ((Ieff * s.rpm * s.rpm + dErot * i.dt) / Ieff)) o.rpmmin) o.rpmmax ∧
    s'.powerOut = netto - dErot ∧ s'.efficiency = max 0 s'.powerOut / (o.Q * s'.fuelRate + 1 / 2 ^ 26) ∧
    s'.compressor.secMode = (if s.compressor.secMode then decide (9 / 10 * o.targetPressure < p) else decide ((o.targetPressure - p) / o.targetPressure < o.secTolerance)) := by
  unfold updatePlena changeRPM at h
  simp only [Option.ite_none_left_eq_some, not_lt] at h
  obtain ⟨h2, h⟩ := h
  rw [Option.some.injEq] at h
  subst h
  exact ⟨rfl, rfl, rfl, congrArg (_ + ·) (mul_assoc _ _ _), rfl, rfl, congrArg (_ + ·) (mul_assoc _ _ _), rfl, rfl, congrArg (_ + ·) (mul_assoc _ _ _), rfl, rfl, h2, rfl, rfl, rfl, rfl⟩

/-- Induction over histories: what holds for the start and is kept by every successful update holds after every history. -/
theorem controlRun_induction {eq : MixEq} {o : ControlOptions} (P : ControlState → Prop) (is : List ControlInput)
    (step : ∀ i ∈ is, ∀ s s', P s → updatePlena eq o i s = some s' → P s') {s s' : ControlState} (h0 : P s) (h : controlRun eq o is s = some s') : P s' := by
  induction is generalizing s with
  | nil => simp only [controlRun, Option.some.injEq] at h; exact h ▸ h0
  | cons i is ih =>
    simp only [controlRun, Option.bind_eq_some_iff] at h
    obtain ⟨s1, h1, h2⟩ := h
    exact ih (fun j hj => step j (by simp [hj])) (step i (by simp) s s1 h0 h1) h2

/-- **C77 (speed).** After every history of updates the speed of the compressor is in the given range. -/
theorem control_rpm (eq : MixEq) (o : ControlOptions) (h : o.rpmmin ≤ o.rpmmax) (is : List ControlInput) (s : ControlState)
    (hs : controlRun eq o is (controlInit eq o) = some s) : o.rpmmin ≤ s.rpm ∧ s.rpm ≤ o.rpmmax := by
  refine controlRun_induction (P := fun s => o.rpmmin ≤ s.rpm ∧ s.rpm ≤ o.rpmmax) is (fun i _ s s' _ hu => ?_) ?_ hs
  · obtain ⟨-, -, -, -, -, -, -, -, -, -, -, -, -, hr, -⟩ := updatePlena_eq hu
    rw [hr]
    exact ⟨le_min (le_max_right _ _) h, min_le_right _ _⟩
  · exact ⟨le_rfl, h⟩

/-- The pressure ratio grows with the speed. -/
theorem compressorRatio_mono (o : ControlOptions) (hm : 0 < o.rpmmean) (hc : 0 ≤ o.c0 * o.pratiovar) : Monotone (compressorRatio o) := by
  intro a b hab
  unfold compressorRatio
  have h1 : Real.arctan (Real.pi * (a / o.rpmmean - 1)) ≤ Real.arctan (Real.pi * (b / o.rpmmean - 1)) := by
    apply Real.arctan_strictMono.monotone
    refine mul_le_mul_of_nonneg_left ?_ Real.pi_pos.le
    have := div_le_div_of_nonneg_right hab hm.le
    linarith
  have := div_le_div_of_nonneg_right (mul_le_mul_of_nonneg_left h1 hc) Real.pi_pos.le
  linarith

/-- **C77 (pressure and temperature).** After every history the compressor pressure is between the pressures of the slowest and the fastest speed, and the temperature is that of a compression from
pressure and temperature one with the given efficiency. -/
theorem control_pressure (eq : MixEq) (o : ControlOptions) (h : o.rpmmin ≤ o.rpmmax) (hm : 0 < o.rpmmean) (hc : 0 ≤ o.c0 * o.pratiovar) (is : List ControlInput) (s : ControlState)
    (hs : controlRun eq o is (controlInit eq o) = some s) :
    compressorRatio o o.rpmmin ≤ s.compressor.pressure ∧ s.compressor.pressure ≤ compressorRatio o o.rpmmax ∧
      o.efficiencyCompressor * (s.compressor.temperature - 1) = (if o.efficiencyCompressor = 0 then 0 else s.compressor.pressure ^ (eq.gammaMinusOne * eq.gammaInv) - 1) := by
  have aux : ∀ x : ℝ, o.efficiencyCompressor * (1 + x / o.efficiencyCompressor - 1) = if o.efficiencyCompressor = 0 then 0 else x := by
    intro x
    split_ifs with h0
    · rw [h0]; ring
    · field_simp; ring
  have key : (o.rpmmin ≤ s.rpm ∧ s.rpm ≤ o.rpmmax) ∧ compressorRatio o o.rpmmin ≤ s.compressor.pressure ∧ s.compressor.pressure ≤ compressorRatio o o.rpmmax ∧
      o.efficiencyCompressor * (s.compressor.temperature - 1) = (if o.efficiencyCompressor = 0 then 0 else s.compressor.pressure ^ (eq.gammaMinusOne * eq.gammaInv) - 1) := by
    refine controlRun_induction (P := fun s => (o.rpmmin ≤ s.rpm ∧ s.rpm ≤ o.rpmmax) ∧ compressorRatio o o.rpmmin ≤ s.compressor.pressure ∧
      s.compressor.pressure ≤ compressorRatio o o.rpmmax ∧
      o.efficiencyCompressor * (s.compressor.temperature - 1) = (if o.efficiencyCompressor = 0 then 0 else s.compressor.pressure ^ (eq.gammaMinusOne * eq.gammaInv) - 1))
      is (fun i _ s s' hp hu => ?_) ?_ hs
    · obtain ⟨e1, e2, -, -, -, -, -, -, -, -, -, -, -, hr, -⟩ := updatePlena_eq hu
      refine ⟨by rw [hr]; exact ⟨le_min (le_max_right _ _) h, min_le_right _ _⟩, ?_, ?_, ?_⟩
      · rw [e1]; exact compressorRatio_mono o hm hc hp.1.1
      · rw [e1]; exact compressorRatio_mono o hm hc hp.1.2
      · rw [e2, e1]; exact aux _
    · refine ⟨⟨le_rfl, h⟩, le_rfl, compressorRatio_mono o hm hc h, ?_⟩
      exact aux _
  exact key.2

/-- **C77 (pressure ratio).** The pressure ratio stays between `pratiomin` and `pratiomax` for all speeds in range exactly if the constant `c_0` is small enough. -/
theorem compressor_ratio_bounds (o : ControlOptions) (h0 : 0 ≤ o.rpmmin) (h1 : o.rpmmin < o.rpmmax) (hp : o.pratiomin < o.pratiomax) (hc : 0 < o.c0) :
    (∀ rpm, o.rpmmin ≤ rpm → rpm ≤ o.rpmmax → o.pratiomin ≤ compressorRatio o.derive rpm ∧ compressorRatio o.derive rpm ≤ o.pratiomax) ↔
      o.c0 * Real.arctan (Real.pi * ((o.rpmmax - o.rpmmin) / (o.rpmmax + o.rpmmin))) ≤ Real.pi / 2 := by
  have hs : 0 < o.rpmmax + o.rpmmin := by linarith
  have hpi := Real.pi_pos
  have hd : 0 < o.pratiomax - o.pratiomin := by linarith
  set A := Real.arctan (Real.pi * ((o.rpmmax - o.rpmmin) / (o.rpmmax + o.rpmmin))) with hA
  have emax : compressorRatio o.derive o.rpmmax = 1 / 2 * (o.pratiomax + o.pratiomin) + (o.pratiomax - o.pratiomin) * (o.c0 * A / Real.pi) := by
    unfold compressorRatio ControlOptions.derive
    simp only
    rw [hA, show o.rpmmax / (1 / 2 * (o.rpmmax + o.rpmmin)) - 1 = (o.rpmmax - o.rpmmin) / (o.rpmmax + o.rpmmin) by field_simp; ring]
    ring
  have emin : compressorRatio o.derive o.rpmmin = 1 / 2 * (o.pratiomax + o.pratiomin) - (o.pratiomax - o.pratiomin) * (o.c0 * A / Real.pi) := by
    unfold compressorRatio ControlOptions.derive
    simp only
    rw [hA, show o.rpmmin / (1 / 2 * (o.rpmmax + o.rpmmin)) - 1 = -((o.rpmmax - o.rpmmin) / (o.rpmmax + o.rpmmin)) by field_simp; ring, mul_neg, Real.arctan_neg]
    ring
  have hiff : o.c0 * A ≤ Real.pi / 2 ↔ o.c0 * A / Real.pi ≤ 1 / 2 := by
    rw [div_le_iff₀ hpi]; constructor <;> intro h <;> linarith
  rw [hiff]
  constructor
  · intro h
    have := (h o.rpmmax h1.le le_rfl).2
    rw [emax] at this
    nlinarith
  · intro h rpm ha hb
    have hm : Monotone (compressorRatio o.derive) := compressorRatio_mono _ (by simp only [ControlOptions.derive]; linarith) (by simp only [ControlOptions.derive]; positivity)
    have u := hm hb
    have l := hm ha
    rw [emax] at u
    rw [emin] at l
    constructor <;> nlinarith

/-- An upper bound of the tangent. -/
theorem tan_le_aux {z : ℝ} (h0 : 0 ≤ z) (h1 : z < 1) : Real.tan z ≤ z / (1 - z ^ 2 / 2) := by
  rw [Real.tan_eq_sin_div_cos]
  have h2 := Real.one_sub_sq_div_two_le_cos (x := z)
  have h3 := Real.sin_le h0
  have h4 : 0 < 1 - z ^ 2 / 2 := by nlinarith
  exact div_le_div₀ h0 h3 h4 h2

/-- **C77 (pressure ratio), the default options.** With the default options the pressure ratio stays in its range. -/
theorem compressor_ratio_default (rpm : ℝ) (h1 : 10000 / 60 ≤ rpm) (h2 : rpm ≤ 60000 / 60) :
    1 ≤ compressorRatio ControlOptions.default rpm ∧ compressorRatio ControlOptions.default rpm ≤ 50 := by
  have hpi := Real.pi_pos
  have hp3 := Real.pi_gt_d2
  have hp4 := Real.pi_lt_d2
  have key := (compressor_ratio_bounds ControlOptions.default (by norm_num [ControlOptions.default, ControlOptions.derive]) (by norm_num [ControlOptions.default, ControlOptions.derive])
    (by norm_num [ControlOptions.default, ControlOptions.derive]) (by norm_num [ControlOptions.default, ControlOptions.derive])).2 ?_ rpm h1 h2
  · exact key
  · have : Real.pi * ((ControlOptions.default.rpmmax - ControlOptions.default.rpmmin) / (ControlOptions.default.rpmmax + ControlOptions.default.rpmmin)) = (7 / (5 * Real.pi))⁻¹ := by
      simp only [ControlOptions.default, ControlOptions.derive]
      field_simp; norm_num
    rw [this, Real.arctan_inv_of_pos (by positivity)]
    have hz : 5 * Real.pi / 44 ≤ Real.arctan (7 / (5 * Real.pi)) := by
      have hz0 : 0 ≤ 5 * Real.pi / 44 := by positivity
      have hz1 : 5 * Real.pi / 44 < 1 := by norm_num at hp4 ⊢; linarith
      rw [← Real.arctan_tan (x := 5 * Real.pi / 44) (by linarith) (by linarith)]
      apply Real.arctan_strictMono.monotone
      refine (tan_le_aux hz0 hz1).trans ?_
      have : 0 < 1 - (5 * Real.pi / 44) ^ 2 / 2 := by nlinarith
      rw [div_le_div_iff₀ this (by positivity)]
      norm_num at hp3 hp4
      nlinarith
    have hc : ControlOptions.default.c0 = 22 / 17 := rfl
    rw [hc]
    linarith

/-- **C77 (pressure ratio) is false in general.** With the smallest speed set to zero and the other default options the pressure ratio leaves its range. -/
theorem compressor_ratio_wrong : ∃ rpm, 0 ≤ rpm ∧ rpm ≤ 60000 / 60 ∧
    50 < compressorRatio ({ ControlOptions.default with rpmmin := 0 } : ControlOptions).derive rpm := by
  have hpi := Real.pi_pos
  have hp3 := Real.pi_gt_three
  refine ⟨60000 / 60, by norm_num, le_rfl, ?_⟩
  have e : compressorRatio ({ ControlOptions.default with rpmmin := 0 } : ControlOptions).derive (60000 / 60) = 51 / 2 + 22 / 17 * 49 * Real.arctan ((1 / Real.pi)⁻¹) / Real.pi := by
    unfold compressorRatio
    simp only [ControlOptions.default, ControlOptions.derive, one_div, inv_inv]
    norm_num
  have hz : Real.arctan (1 / Real.pi) < 5 * Real.pi / 44 := by
    have h1 : Real.arctan (1 / Real.pi) ≤ 1 / Real.pi := by
      have := Real.le_tan (x := Real.arctan (1 / Real.pi)) (Real.arctan_nonneg.2 (by positivity)) (Real.arctan_lt_pi_div_two _)
      rwa [Real.tan_arctan] at this
    have h2 : 1 / Real.pi < 5 * Real.pi / 44 := by
      rw [div_lt_div_iff₀ hpi (by norm_num)]; nlinarith
    linarith
  have hq : 49 / 2 < 22 / 17 * 49 * (Real.pi / 2 - Real.arctan (1 / Real.pi)) / Real.pi := by
    rw [lt_div_iff₀ hpi]; linarith
  rw [e, Real.arctan_inv_of_pos (by positivity)]
  linarith

/-- **C77 (fuel).** The fuel consumption is the sum over all updates of the fuel flux times the inlet area times the time step. -/
theorem control_fuel (eq : MixEq) (o : ControlOptions) (is : List ControlInput) (s : ControlState) (hs : controlRun eq o is (controlInit eq o) = some s) :
    s.fuelConsumption = (is.map fun i => i.fluxSpec * o.areaTubeInlet * i.dt).sum := by
  have key : ∀ (is : List ControlInput) (s0 s : ControlState), controlRun eq o is s0 = some s →
      s.fuelConsumption = s0.fuelConsumption + (is.map fun i => i.fluxSpec * o.areaTubeInlet * i.dt).sum := by
    intro is
    induction is with
    | nil => intro s0 s h; simp only [controlRun, Option.some.injEq] at h; subst h; simp
    | cons i is ih =>
      intro s0 s h
      simp only [controlRun, Option.bind_eq_some_iff] at h
      obtain ⟨s1, h1, h2⟩ := h
      obtain ⟨-, -, -, -, -, e, -⟩ := updatePlena_eq h1
      rw [ih s1 s h2, e, List.map_cons, List.sum_cons]; ring
  rw [key is _ s hs]
  simp [controlInit, updateCompressorFromRPM]

/-- The kinetic energy of a rotor with the given moment of inertia and number of revolutions per time. -/
noncomputable def rotorEnergy (inertia rpm : ℝ) : ℝ := 1 / 2 * inertia * (2 * Real.pi * rpm) ^ 2

/-- **C77 (energy), the part that holds.** If the new speed is inside of its range, what turbine and compressor leave over is the power that is put out plus the change of the energy of the rotor. -/
theorem control_energy_partial (eq : MixEq) (o : ControlOptions) (i : ControlInput) (s s' : ControlState) (h : updatePlena eq o i s = some s') (hI : 0 < o.inertialMoment)
    (h1 : o.rpmmin < s'.rpm) (h2 : s'.rpm < o.rpmmax) :
    rotorEnergy o.inertialMoment s'.rpm - rotorEnergy o.inertialMoment s.rpm = (s'.turbine.power - s'.compressor.power - s'.powerOut) * i.dt := by
  obtain ⟨-, -, -, -, -, -, -, -, -, -, -, -, h0, hr, hp, -⟩ := updatePlena_eq h
  rw [hp, sub_sub_cancel]
  have hpi := Real.pi_pos
  generalize (if compressorRatio o s.rpm < o.targetPressure then _ else (0 : ℝ)) = dE at h0 hr ⊢
  have hmax : s'.rpm = max (Real.sqrt ((2 * (Real.pi * Real.pi) * o.inertialMoment * s.rpm * s.rpm + dE * i.dt) / (2 * (Real.pi * Real.pi) * o.inertialMoment))) o.rpmmin := by
    rw [hr] at h2 ⊢
    rcases min_lt_iff.1 h2 with h | h
    · exact min_eq_left h.le
    · exact absurd h (lt_irrefl _)
  have hsq : s'.rpm = Real.sqrt ((2 * (Real.pi * Real.pi) * o.inertialMoment * s.rpm * s.rpm + dE * i.dt) / (2 * (Real.pi * Real.pi) * o.inertialMoment)) := by
    rw [hmax] at h1 ⊢
    rcases lt_max_iff.1 h1 with h | h
    · exact max_eq_left h.le
    · exact absurd h (lt_irrefl _)
  have := Real.sq_sqrt h0
  rw [← hsq] at this
  rw [eq_div_iff (by positivity)] at this
  unfold rotorEnergy
  linear_combination this

/-- **C77 (energy) is false at the end of the range.** At the largest speed the part of the power that is taken for the rotor is lost: it is neither put out nor stored. -/
theorem control_energy_wrong (eq : MixEq) (o : ControlOptions) (i : ControlInput) (s s' : ControlState) (h : updatePlena eq o i s = some s') (hI : 0 < o.inertialMoment)
    (hdt : 0 < i.dt) (hmu : 0 < o.mu) (ht : 0 < o.targetPressure) (hm : o.rpmmin ≤ o.rpmmax) (h0 : 0 < o.rpmmax) (h1 : s.rpm = o.rpmmax)
    (h2 : compressorRatio o s.rpm < o.targetPressure) (h3 : s'.compressor.power < s'.turbine.power) :
    rotorEnergy o.inertialMoment s'.rpm - rotorEnergy o.inertialMoment s.rpm < (s'.turbine.power - s'.compressor.power - s'.powerOut) * i.dt := by
  obtain ⟨-, -, -, -, -, -, -, -, -, -, -, -, h0', hr, hp, -⟩ := updatePlena_eq h
  rw [if_pos h2] at hr hp h0'
  have hpi := Real.pi_pos
  have hrate : 0 < 15 / 1000 * (1 - Real.exp (-o.mu * ((o.targetPressure - compressorRatio o s.rpm) / o.targetPressure))) * (s'.turbine.power - s'.compressor.power) := by
    have : Real.exp (-o.mu * ((o.targetPressure - compressorRatio o s.rpm) / o.targetPressure)) < 1 := by
      rw [Real.exp_lt_one_iff]
      have := mul_pos hmu (div_pos (sub_pos.2 h2) ht)
      linarith
    have a : 0 < 1 - Real.exp (-o.mu * ((o.targetPressure - compressorRatio o s.rpm) / o.targetPressure)) := by linarith
    have b : 0 < s'.turbine.power - s'.compressor.power := by linarith
    positivity
  rw [hp, sub_sub_cancel]
  generalize 15 / 1000 * (1 - Real.exp (-o.mu * ((o.targetPressure - compressorRatio o s.rpm) / o.targetPressure))) * (s'.turbine.power - s'.compressor.power) = dE at *
  have hge : o.rpmmax ≤ Real.sqrt ((2 * (Real.pi * Real.pi) * o.inertialMoment * s.rpm * s.rpm + dE * i.dt) / (2 * (Real.pi * Real.pi) * o.inertialMoment)) := by
    apply Real.le_sqrt_of_sq_le
    rw [le_div_iff₀ (by positivity), h1]
    have := mul_pos hrate hdt
    nlinarith
  have : s'.rpm = s.rpm := by
    rw [hr, max_eq_left (hm.trans hge), min_eq_right hge, h1]
  rw [this, sub_self]
  exact mul_pos hrate hdt

/-- **C77 (regulation).** At or above the target pressure the speed is kept; below it the rotor takes a part of the power that is left over which is less than 1.5 percent, so the speed does not
fall if turbine power exceeds compressor power. -/
theorem control_regulation (eq : MixEq) (o : ControlOptions) (i : ControlInput) (s s' : ControlState) (h : updatePlena eq o i s = some s') (hI : 0 < o.inertialMoment)
    (hdt : 0 ≤ i.dt) (hmu : 0 ≤ o.mu) (ht : 0 < o.targetPressure) (h0 : 0 ≤ s.rpm) (h1 : o.rpmmin ≤ s.rpm) (h2 : s.rpm ≤ o.rpmmax) :
    (o.targetPressure ≤ s'.compressor.pressure → s'.rpm = s.rpm ∧ s'.powerOut = s'.turbine.power - s'.compressor.power) ∧
    (s'.compressor.power ≤ s'.turbine.power → s.rpm ≤ s'.rpm ∧ 985 / 1000 * (s'.turbine.power - s'.compressor.power) ≤ s'.powerOut ∧
      s'.powerOut ≤ s'.turbine.power - s'.compressor.power) := by
  obtain ⟨e1, -, -, -, -, -, -, -, -, -, -, -, h0', hr, hp, -⟩ := updatePlena_eq h
  have hpi := Real.pi_pos
  rw [e1]
  constructor
  · intro hle
    rw [if_neg (not_lt.2 hle)] at hr hp
    refine ⟨?_, by rw [hp]; ring⟩
    have : Real.sqrt ((2 * (Real.pi * Real.pi) * o.inertialMoment * s.rpm * s.rpm + 0 * i.dt) / (2 * (Real.pi * Real.pi) * o.inertialMoment)) = s.rpm := by
      rw [show (2 * (Real.pi * Real.pi) * o.inertialMoment * s.rpm * s.rpm + 0 * i.dt) / (2 * (Real.pi * Real.pi) * o.inertialMoment) = s.rpm ^ 2 by field_simp; ring]
      exact Real.sqrt_sq h0
    rw [hr, this, max_eq_left h1, min_eq_left h2]
  · intro hle
    have hd : ∀ n : ℝ, 0 ≤ n → 0 ≤ (if compressorRatio o s.rpm < o.targetPressure then
        15 / 1000 * (1 - Real.exp (-o.mu * ((o.targetPressure - compressorRatio o s.rpm) / o.targetPressure))) * n else 0) ∧
        (if compressorRatio o s.rpm < o.targetPressure then
        15 / 1000 * (1 - Real.exp (-o.mu * ((o.targetPressure - compressorRatio o s.rpm) / o.targetPressure))) * n else 0) ≤ 15 / 1000 * n := by
      intro n hn
      split_ifs with hlt
      · have a : Real.exp (-o.mu * ((o.targetPressure - compressorRatio o s.rpm) / o.targetPressure)) ≤ 1 := by
          rw [Real.exp_le_one_iff]
          have := mul_nonneg hmu (div_pos (sub_pos.2 hlt) ht).le
          linarith
        have b := Real.exp_pos (-o.mu * ((o.targetPressure - compressorRatio o s.rpm) / o.targetPressure))
        generalize Real.exp (-o.mu * ((o.targetPressure - compressorRatio o s.rpm) / o.targetPressure)) = e at *
        constructor <;> nlinarith
      · constructor <;> linarith
    obtain ⟨d0, d1⟩ := hd (s'.turbine.power - s'.compressor.power) (by linarith)
    rw [hp]
    generalize (if compressorRatio o s.rpm < o.targetPressure then
        15 / 1000 * (1 - Real.exp (-o.mu * ((o.targetPressure - compressorRatio o s.rpm) / o.targetPressure))) * (s'.turbine.power - s'.compressor.power) else 0) = dE at *
    refine ⟨?_, by linarith, by linarith⟩
    rw [hr]
    refine le_min (le_trans ?_ (le_max_left _ _)) h2
    apply Real.le_sqrt_of_sq_le
    rw [le_div_iff₀ (by positivity)]
    have := mul_nonneg d0 hdt
    nlinarith

/-- **C77 (SEC mode).** The mode is switched on when the pressure exceeds `1 - tolerance` times the target, switched off when it is not above nine tenths of the target, and kept otherwise. -/
theorem control_sec (eq : MixEq) (o : ControlOptions) (i : ControlInput) (s s' : ControlState) (h : updatePlena eq o i s = some s') (ht : 0 < o.targetPressure)
    (htol : o.secTolerance ≤ 1 / 10) :
    let p := s'.compressor.pressure
    ((1 - o.secTolerance) * o.targetPressure < p → s'.compressor.secMode = true) ∧ (p ≤ 9 / 10 * o.targetPressure → s'.compressor.secMode = false) ∧
    (9 / 10 * o.targetPressure < p → p ≤ (1 - o.secTolerance) * o.targetPressure → s'.compressor.secMode = s.compressor.secMode) := by
  intro p
  obtain ⟨e1, -, -, -, -, -, -, -, -, -, -, -, -, -, -, -, hm⟩ := updatePlena_eq h
  rw [← e1] at hm
  have hiff : (o.targetPressure - p) / o.targetPressure < o.secTolerance ↔ (1 - o.secTolerance) * o.targetPressure < p := by
    rw [div_lt_iff₀ ht]; constructor <;> intro h <;> linarith
  have hle : 9 / 10 * o.targetPressure ≤ (1 - o.secTolerance) * o.targetPressure := by nlinarith
  have hm' : s'.compressor.secMode = if s.compressor.secMode then decide (9 / 10 * o.targetPressure < p) else decide ((1 - o.secTolerance) * o.targetPressure < p) := by
    rw [hm]; split_ifs
    · rfl
    · exact decide_eq_decide.2 hiff
  refine ⟨fun hp => ?_, fun hp => ?_, fun h1 h2 => ?_⟩
  · rw [hm']; split_ifs
    · exact decide_eq_true (lt_of_le_of_lt hle hp)
    · exact decide_eq_true hp
  · rw [hm']; split_ifs
    · exact decide_eq_false (not_lt.2 hp)
    · exact decide_eq_false (not_lt.2 (hp.trans hle))
  · rw [hm']; split_ifs with hc
    · rw [hc]; exact decide_eq_true h1
    · rw [decide_eq_false (not_lt.2 h2)]; simpa using hc

/-- **C77 (mass balance of the compressor plenum).** The difference of the averaged mass flows into and out of the plenum is the running average of the rate of change of its mass. -/
theorem control_mass (eq : MixEq) (o : ControlOptions) (i : ControlInput) (s s' : ControlState) (h : updatePlena eq o i s = some s') (hdt : i.dt ≠ 0) :
    s'.compressor.massFlowIn - s'.compressor.massFlowOut = (1 - i.dt) * (s.compressor.massFlowIn - s.compressor.massFlowOut) +
      (o.volumeCompressor * (s'.compressor.pressure / s'.compressor.temperature) - o.volumeCompressor * (s.compressor.pressure / s.compressor.temperature)) := by
  obtain ⟨e1, e2, e3, e4, -⟩ := updatePlena_eq h
  rw [e3, e4, e1, e2]
  generalize compressorRatio o s.rpm / (1 + (compressorRatio o s.rpm ^ (eq.gammaMinusOne * eq.gammaInv) - 1) / o.efficiencyCompressor) = a
  generalize s.compressor.pressure / s.compressor.temperature = b
  field_simp
  ring

/-- A running average of values between `a` and `b` stays between them, if the weight is between zero and one. -/
theorem average_mem {a b x y w : ℝ} (hx : a ≤ x ∧ x ≤ b) (hy : a ≤ y ∧ y ≤ b) (hw : 0 ≤ w ∧ w ≤ 1) : a ≤ (1 - w) * x + w * y ∧ (1 - w) * x + w * y ≤ b := by
  constructor <;> nlinarith

/-- **C77 (averages), the part that holds.** If no time step exceeds one, the fuel rate stays between bounds of the fuel flow, the mass flow out of the turbine plenum between bounds of
the turbine mass flow, and the efficiency is not negative. -/
theorem control_averages_partial (eq : MixEq) (o : ControlOptions) (hQ : 0 ≤ o.Q) (is : List ControlInput) (F M m : ℝ) (hF : 0 ≤ F)
    (hin : ∀ i ∈ is, 0 ≤ i.dt ∧ i.dt ≤ 1 ∧ 0 ≤ i.fluxSpec * o.areaTubeInlet ∧ i.fluxSpec * o.areaTubeInlet ≤ F ∧ m ≤ i.mdotTurbine ∧ i.mdotTurbine ≤ M)
    (h0 : m ≤ o.initialTurbine.massFlowOut ∧ o.initialTurbine.massFlowOut ≤ M) (s : ControlState) (hs : controlRun eq o is (controlInit eq o) = some s) :
    (0 ≤ s.fuelRate ∧ s.fuelRate ≤ F) ∧ (m ≤ s.turbine.massFlowOut ∧ s.turbine.massFlowOut ≤ M) ∧ 0 ≤ s.efficiency := by
  refine controlRun_induction (P := fun s => (0 ≤ s.fuelRate ∧ s.fuelRate ≤ F) ∧ (m ≤ s.turbine.massFlowOut ∧ s.turbine.massFlowOut ≤ M) ∧ 0 ≤ s.efficiency)
    is (fun i hi s s' hp hu => ?_) ?_ hs
  · obtain ⟨a1, a2, a3, a4, a5, a6⟩ := hin i hi
    obtain ⟨-, -, -, -, -, -, e7, -, -, -, e11, -, -, -, -, ee, -⟩ := updatePlena_eq hu
    have hr : 0 ≤ s'.fuelRate ∧ s'.fuelRate ≤ F := by rw [e7]; exact average_mem hp.1 ⟨a3, a4⟩ ⟨a1, a2⟩
    refine ⟨hr, by rw [e11]; exact average_mem hp.2.1 ⟨a5, a6⟩ ⟨a1, a2⟩, ?_⟩
    rw [ee]
    have := mul_nonneg hQ hr.1
    exact div_nonneg (le_max_left _ _) (by positivity)
  · exact ⟨⟨le_rfl, hF⟩, h0, le_rfl⟩

/-- Options for the counterexamples: a compressor of pressure ratio one whatever the speed is. -/
noncomputable def exControl (target : ℝ) : ControlOptions :=
  ControlOptions.derive { ControlOptions.default with pratiomin := 1, pratiomax := 1, targetPressure := target, initialTurbine := ⟨2, 1, 0, 0, 0, false⟩ }

theorem exControl_ratio (target rpm : ℝ) : compressorRatio (exControl target) rpm = 1 := by
  unfold compressorRatio
  simp only [exControl, ControlOptions.derive]
  norm_num

theorem exControl_fixed (target rpm : ℝ) : (exControl target).targetPressure = target ∧ (exControl target).inertialMoment = 1 / 10 := ⟨rfl, rfl⟩

/-- At or above the target pressure the update always succeeds. -/
theorem updatePlena_some (eq : MixEq) (o : ControlOptions) (i : ControlInput) (s : ControlState) (hI : 0 < o.inertialMoment) (h : o.targetPressure ≤ compressorRatio o s.rpm) :
    ∃ s', updatePlena eq o i s = some s' := by
  have hpi := Real.pi_pos
  unfold updatePlena changeRPM
  simp only [updateCompressorPlenum, updateCompressorFromRPM, updateTurbinePlenum]
  simp only [not_lt.2 h, if_false]
  rw [if_neg]
  · exact ⟨_, rfl⟩
  · rw [not_lt, show (2 * (Real.pi * Real.pi) * o.inertialMoment * s.rpm * s.rpm + 0 * i.dt) / (2 * (Real.pi * Real.pi) * o.inertialMoment) = s.rpm ^ 2 by field_simp; ring]
    positivity

/-- **C77 (averages) is false for large time steps.** Two time steps of length three with the fuel flow one give the fuel rate minus three. -/
theorem control_averages_wrong (eq : MixEq) (cur : PlenumState) : ∃ s, controlRun eq (exControl 1) [⟨1, cur, 1, 1, 1, 3⟩, ⟨1, cur, 1, 1, 1, 3⟩] (controlInit eq (exControl 1)) = some s ∧
    s.fuelRate = -3 := by
  obtain ⟨s1, h1⟩ := updatePlena_some eq (exControl 1) ⟨1, cur, 1, 1, 1, 3⟩ (controlInit eq (exControl 1)) (by norm_num [(exControl_fixed 1 0).2]) (by rw [exControl_ratio]; exact le_rfl)
  obtain ⟨s2, h2⟩ := updatePlena_some eq (exControl 1) ⟨1, cur, 1, 1, 1, 3⟩ s1 (by norm_num [(exControl_fixed 1 0).2]) (by rw [exControl_ratio]; exact le_rfl)
  refine ⟨s2, by simp only [controlRun]; rw [h1, Option.bind_some, h2]; rfl, ?_⟩
  obtain ⟨-, -, -, -, -, -, e1, -⟩ := updatePlena_eq h1
  obtain ⟨-, -, -, -, -, -, e2, -⟩ := updatePlena_eq h2
  have ha : (exControl 1).areaTubeInlet = 1 := rfl
  have h0 : (controlInit eq (exControl 1)).fuelRate = 0 := rfl
  rw [e2, e1, h0, ha]
  norm_num

/-- **C77 (speed) can become undefined.** If the compressor takes more energy from the rotor than it has, the new speed is the square root of a negative number. -/
theorem control_fails (eq : MixEq) (h : eq.Valid) : ∃ i : ControlInput, 0 < i.dt ∧ i.dt ≤ 1 ∧ updatePlena eq (exControl 2) i (controlInit eq (exControl 2)) = none := by
  obtain ⟨g0, g1, g2⟩ := h.pos
  have hpi := Real.pi_pos
  set o := exControl 2 with ho
  set s := controlInit eq o with hsd
  have hgm : eq.gammaMinusOne * eq.gammaInv = (eq.gamma - 1) / eq.gamma := by rw [h.minusOne, h.inv]; ring
  have hpow : (2 : ℝ) ^ (-(eq.gammaMinusOne * eq.gammaInv)) < 1 := by
    apply Real.rpow_lt_one_of_one_lt_of_neg (by norm_num)
    rw [hgm]; have := div_pos g1 g0; linarith
  set c := eq.gammaOverGammaMinusOne * o.efficiencyTurbine * 1 * (1 - (2 : ℝ) ^ (-(eq.gammaMinusOne * eq.gammaInv))) with hc
  have hc0 : 0 < c := by
    have : 0 < eq.gammaOverGammaMinusOne := by rw [h.over]; positivity
    have h2 : o.efficiencyTurbine = 9 / 10 := rfl
    have h3 : 0 < 1 - (2 : ℝ) ^ (-(eq.gammaMinusOne * eq.gammaInv)) := by linarith
    rw [hc, h2]; positivity
  have hE : Real.exp (-o.mu * ((o.targetPressure - 1) / o.targetPressure)) < 1 := by
    rw [Real.exp_lt_one_iff]
    have h1 : o.mu = 10 := rfl
    have h2 : o.targetPressure = 2 := rfl
    rw [h1, h2]; norm_num
  set r := 15 / 1000 * (1 - Real.exp (-o.mu * ((o.targetPressure - 1) / o.targetPressure))) with hr
  have hr0 : 0 < r := by have : 0 < 1 - Real.exp (-o.mu * ((o.targetPressure - 1) / o.targetPressure)) := by linarith
                         rw [hr]; positivity
  set K := (2 * (Real.pi * Real.pi) * o.inertialMoment * s.rpm * s.rpm + 1) / r with hK
  set i : ControlInput := ⟨-K / c, ⟨2, 1, 0, 0, 0, false⟩, 0, 0, 0, 1⟩ with hi
  refine ⟨i, by norm_num [hi], by norm_num [hi], ?_⟩
  by_contra hne
  obtain ⟨s', hs'⟩ := Option.ne_none_iff_exists'.1 hne
  obtain ⟨e1, e2, -, -, e5, -, -, -, -, -, -, e12, e13, -⟩ := updatePlena_eq hs'
  have hratio : compressorRatio o s.rpm = 1 := exControl_ratio 2 _
  have hT0 : s.compressor.temperature = 1 := by
    rw [hsd]
    simp only [controlInit, updateCompressorFromRPM]
    rw [show compressorRatio o o.rpmmin = 1 from exControl_ratio 2 _, Real.one_rpow]; simp
  have hcp : s'.compressor.power = 0 := by
    rw [e5, hratio, Real.one_rpow, hT0]
    have : s.compressor.power = 0 := rfl
    rw [this]; norm_num
  have htp : s'.turbine.power = -K := by
    rw [e12]
    have t1 : s.turbine.pressure = 2 := rfl
    have t2 : s.turbine.temperature = 1 := rfl
    rw [t1, t2]
    simp only [hi]
    rw [show (1 / 2 * ((2 : ℝ) + 2)) = 2 by norm_num, show (1 / 2 * ((1 : ℝ) + 1)) = 1 by norm_num]
    calc _ = -K / c * c := by rw [hc]; ring
      _ = -K := by field_simp
  rw [hratio, htp, hcp] at e13
  have ht : (1 : ℝ) < o.targetPressure := by rw [show o.targetPressure = 2 from rfl]; norm_num
  rw [if_pos ht] at e13
  have hIe : (0 : ℝ) < 2 * (Real.pi * Real.pi) * o.inertialMoment := by rw [show o.inertialMoment = 1 / 10 from rfl]; positivity
  have hneg : 2 * (Real.pi * Real.pi) * o.inertialMoment * s.rpm * s.rpm + r * (-K - 0) * i.dt < 0 := by
    have hd : i.dt = 1 := rfl
    have : r * K = 2 * (Real.pi * Real.pi) * o.inertialMoment * s.rpm * s.rpm + 1 := by rw [hK]; field_simp
    rw [hd]; linarith
  exact absurd (div_neg_of_neg_of_pos hneg hIe) (not_lt.2 e13)

/-- **C77 (turbine).** The power of the turbine is not negative and at most what cooling its mass flow to zero temperature would give. -/
theorem control_turbine (eq : MixEq) (hv : eq.Valid) (o : ControlOptions) (i : ControlInput) (s s' : ControlState) (h : updatePlena eq o i s = some s') (h1 : 0 ≤ i.mdotTurbine)
    (h2 : 0 ≤ o.efficiencyTurbine) (h3 : o.efficiencyTurbine ≤ 1) (h4 : 1 ≤ s.turbine.pressure) (h5 : 1 ≤ i.turbine.pressure) (h6 : 0 ≤ s.turbine.temperature)
    (h7 : 0 ≤ i.turbine.temperature) :
    0 ≤ s'.turbine.power ∧ s'.turbine.power ≤ i.mdotTurbine * (eq.gamma / (eq.gamma - 1)) * ((s.turbine.temperature + i.turbine.temperature) / 2) := by
  obtain ⟨g0, g1, g2⟩ := hv.pos
  obtain ⟨-, -, -, -, -, -, -, -, -, -, -, e, -⟩ := updatePlena_eq h
  have hgm : eq.gammaMinusOne * eq.gammaInv = (eq.gamma - 1) / eq.gamma := by rw [hv.minusOne, hv.inv]; ring
  have hp1 : 1 ≤ 1 / 2 * (s.turbine.pressure + i.turbine.pressure) := by linarith
  have a1 : (1 / 2 * (s.turbine.pressure + i.turbine.pressure)) ^ (-(eq.gammaMinusOne * eq.gammaInv)) ≤ 1 := by
    apply Real.rpow_le_one_of_one_le_of_nonpos hp1
    rw [hgm]; have := div_pos g1 g0; linarith
  have a0 : 0 ≤ (1 / 2 * (s.turbine.pressure + i.turbine.pressure)) ^ (-(eq.gammaMinusOne * eq.gammaInv)) := Real.rpow_nonneg (by linarith) _
  rw [e, hv.over]
  generalize (1 / 2 * (s.turbine.pressure + i.turbine.pressure)) ^ (-(eq.gammaMinusOne * eq.gammaInv)) = x at *
  have b : 0 ≤ i.mdotTurbine * (eq.gamma / (eq.gamma - 1)) * (1 / 2 * (s.turbine.temperature + i.turbine.temperature)) := by positivity
  have c0 : 0 ≤ o.efficiencyTurbine * (1 - x) := mul_nonneg h2 (by linarith)
  have c1 : o.efficiencyTurbine * (1 - x) ≤ 1 := by nlinarith
  constructor
  · have := mul_nonneg b c0; linarith
  · have := mul_le_mul_of_nonneg_left c1 b; linarith

/-- **C77 (compressor power) charges the efficiency twice.** In a steady state the compressor takes `1 / efficiency` times the enthalpy that its air gains, although the temperature rise contains the
efficiency already. -/
theorem control_compressor_power (eq : MixEq) (hv : eq.Valid) (o : ControlOptions) (i : ControlInput) (s s' : ControlState) (h : updatePlena eq o i s = some s') (hdt : i.dt = 1)
    (hst : s'.compressor.pressure = s.compressor.pressure ∧ s'.compressor.temperature = s.compressor.temperature) (he : o.efficiencyCompressor ≠ 0) :
    o.efficiencyCompressor * s'.compressor.power = s'.compressor.massFlowIn * (eq.gamma / (eq.gamma - 1)) * (s'.compressor.temperature - 1) := by
  obtain ⟨e1, e2, e3, e4, e5, -⟩ := updatePlena_eq h
  rw [← e2, ← e1] at e3
  rw [← e2, ← e1] at e5
  rw [e5, e3, hdt, hst.1, hst.2, hv.over]
  field_simp
  ring

/-! ### The turbine plenum of a single tube -/

/-- **C77 (turbine plenum).** The plenum keeps mass and energy: their change is what flows in through the tube minus what the turbine takes, which carries the enthalpy of the plenum; pressure and temperature
stay positive if the time step is small enough. -/
theorem feedback_turbine (eq : MixEq) (hv : eq.Valid) (o : ControlOptions) (c : ℝ) (hc : 0 ≤ c) (old : PlenumState) (fRho fRhoe dt : ℝ) (hp : 0 < old.pressure) (hT : 0 < old.temperature)
    (hV : 0 < o.volumeTurbine) (hdt : 0 ≤ dt) (hA : 0 ≤ o.areaTubeOutlet) (hf : 0 ≤ fRho) (hfe : 0 ≤ fRhoe) (hcfl : eq.gamma * (c * Real.sqrt old.temperature) * dt < o.volumeTurbine) :
    let r := feedbackTurbine eq o c old fRho fRhoe dt
    0 < r.1.pressure ∧ 0 < r.1.temperature ∧ 0 ≤ r.2 ∧
    o.volumeTurbine * (r.1.pressure / r.1.temperature) - o.volumeTurbine * (old.pressure / old.temperature) = (fRho * o.areaTubeOutlet - r.2) * dt ∧
    o.volumeTurbine * (r.1.pressure / (eq.gamma - 1)) - o.volumeTurbine * (old.pressure / (eq.gamma - 1)) =
      (fRhoe * o.areaTubeOutlet - r.2 * (eq.gamma / (eq.gamma - 1) * old.temperature)) * dt := by
  obtain ⟨g0, g1, g2⟩ := hv.pos
  have hsq : 0 < Real.sqrt old.temperature := Real.sqrt_pos.2 hT
  have hT2 : old.temperature = Real.sqrt old.temperature * Real.sqrt old.temperature := (Real.mul_self_sqrt hT.le).symm
  have g1' : 1 ≤ eq.gamma := hv.one_lt.le
  unfold feedbackTurbine
  simp only
  rw [hv.minusOneInv, hv.minusOne]
  set q := Real.sqrt old.temperature with hq
  have hm : c * old.pressure / q * ((old.pressure * (1 / (eq.gamma - 1)) + old.pressure) / (old.pressure / old.temperature)) = c * old.pressure / q * (eq.gamma / (eq.gamma - 1) * old.temperature) := by
    field_simp; ring
  rw [hm]
  have hrho : 0 < old.pressure / old.temperature + (fRho * o.areaTubeOutlet - c * old.pressure / q) * dt / o.volumeTurbine := by
    have h1 : 0 ≤ fRho * o.areaTubeOutlet * dt / o.volumeTurbine := by positivity
    have h2 : c * old.pressure / q * dt / o.volumeTurbine < old.pressure / old.temperature := by
      rw [div_lt_div_iff₀ hV hT]
      have h3 : c * q * dt < o.volumeTurbine := by
        have : 0 ≤ c * q * dt := by positivity
        nlinarith
      calc c * old.pressure / q * dt * old.temperature = old.pressure * (c * q * dt) := by rw [hT2]; field_simp
        _ < old.pressure * o.volumeTurbine := mul_lt_mul_of_pos_left h3 hp
    have : (fRho * o.areaTubeOutlet - c * old.pressure / q) * dt / o.volumeTurbine = fRho * o.areaTubeOutlet * dt / o.volumeTurbine - c * old.pressure / q * dt / o.volumeTurbine := by ring
    linarith
  have hpn : 0 < (old.pressure * (1 / (eq.gamma - 1)) + (fRhoe * o.areaTubeOutlet - c * old.pressure / q * (eq.gamma / (eq.gamma - 1) * old.temperature)) * dt / o.volumeTurbine) * (eq.gamma - 1) := by
    have h1 : 0 ≤ fRhoe * o.areaTubeOutlet * dt / o.volumeTurbine * (eq.gamma - 1) := by positivity
    have h2 : c * old.pressure / q * (eq.gamma * old.temperature) * dt / o.volumeTurbine < old.pressure := by
      rw [div_lt_iff₀ hV]
      calc c * old.pressure / q * (eq.gamma * old.temperature) * dt = old.pressure * (eq.gamma * (c * q) * dt) := by rw [hT2]; field_simp
        _ < old.pressure * o.volumeTurbine := mul_lt_mul_of_pos_left hcfl hp
    have : (old.pressure * (1 / (eq.gamma - 1)) + (fRhoe * o.areaTubeOutlet - c * old.pressure / q * (eq.gamma / (eq.gamma - 1) * old.temperature)) * dt / o.volumeTurbine) * (eq.gamma - 1) =
        old.pressure + fRhoe * o.areaTubeOutlet * dt / o.volumeTurbine * (eq.gamma - 1) - c * old.pressure / q * (eq.gamma * old.temperature) * dt / o.volumeTurbine := by
      field_simp
      ring
    linarith
  refine ⟨hpn, div_pos hpn hrho, by positivity, ?_, ?_⟩
  · rw [div_div_cancel₀ hpn.ne']
    generalize old.pressure / old.temperature = x
    generalize c * old.pressure / q = y
    field_simp; ring
  · rw [mul_div_assoc, div_self g1.ne', mul_one]
    generalize c * old.pressure / q = y
    field_simp; ring

/-- A concrete history for the theorems: two updates with the default options but target pressure one, with time step one half. -/
example : ∃ s, controlRun (computeConstants 287 (7 / 5)) (exControl 1) [⟨1, ⟨3, 2, 0, 0, 0, false⟩, 1, 1, 1, 1 / 2⟩, ⟨2, ⟨4, 2, 0, 0, 0, false⟩, 1, 2, 1, 1 / 2⟩]
    (controlInit (computeConstants 287 (7 / 5)) (exControl 1)) = some s ∧ s.fuelConsumption = 3 / 2 ∧ s.fuelRate = 5 / 4 ∧ s.compressor.secMode = true := by
  set eq := computeConstants 287 (7 / 5)
  obtain ⟨s1, h1⟩ := updatePlena_some eq (exControl 1) ⟨1, ⟨3, 2, 0, 0, 0, false⟩, 1, 1, 1, 1 / 2⟩ (controlInit eq (exControl 1)) (by norm_num [(exControl_fixed 1 0).2]) (by rw [exControl_ratio]; exact le_rfl)
  obtain ⟨s2, h2⟩ := updatePlena_some eq (exControl 1) ⟨2, ⟨4, 2, 0, 0, 0, false⟩, 1, 2, 1, 1 / 2⟩ s1 (by norm_num [(exControl_fixed 1 0).2]) (by rw [exControl_ratio]; exact le_rfl)
  have hrun : controlRun eq (exControl 1) [⟨1, ⟨3, 2, 0, 0, 0, false⟩, 1, 1, 1, 1 / 2⟩, ⟨2, ⟨4, 2, 0, 0, 0, false⟩, 1, 2, 1, 1 / 2⟩] (controlInit eq (exControl 1)) = some s2 := by
    simp only [controlRun]; rw [h1, Option.bind_some, h2]; rfl
  refine ⟨s2, hrun, ?_, ?_, ?_⟩
  · rw [control_fuel eq _ _ _ hrun]
    simp only [List.map_cons, List.map_nil, List.sum_cons, List.sum_nil, show (exControl 1).areaTubeInlet = 1 from rfl]; norm_num
  · obtain ⟨-, -, -, -, -, -, e1, -⟩ := updatePlena_eq h1
    obtain ⟨-, -, -, -, -, -, e2, -⟩ := updatePlena_eq h2
    rw [e2, e1, show (controlInit eq (exControl 1)).fuelRate = 0 from rfl, show (exControl 1).areaTubeInlet = 1 from rfl]; norm_num
  · obtain ⟨e1, -⟩ := updatePlena_eq h2
    refine (control_sec eq (exControl 1) _ s1 s2 h2 (by norm_num [(exControl_fixed 1 0).1]) (by rw [show (exControl 1).secTolerance = 1 / 10000 from rfl]; norm_num)).1 ?_
    rw [e1, exControl_ratio, show (exControl 1).secTolerance = 1 / 10000 from rfl, (exControl_fixed 1 0).1]; norm_num

/-- The plenum of the single tube with the default correlation. -/
example : 0 < (feedbackTurbine (computeConstants 287 (7 / 5)) (exControl 1) (24 / 100) ⟨2, 4, 0, 0, 0, false⟩ 1 3 (1 / 2)).1.temperature :=
  (feedback_turbine _ (computeConstants_valid 287 (7 / 5) (by norm_num) (by norm_num)).1 (exControl 1) (24 / 100) (by norm_num) ⟨2, 4, 0, 0, 0, false⟩ 1 3 (1 / 2) (by norm_num) (by norm_num)
    (by rw [show (exControl 1).volumeTurbine = 20 from rfl]; norm_num) (by norm_num) (by rw [show (exControl 1).areaTubeOutlet = 4 from rfl]; norm_num) (by norm_num) (by norm_num) (by
      have : Real.sqrt 4 = 2 := by rw [show (4 : ℝ) = 2 ^ 2 by norm_num]; exact Real.sqrt_sq (by norm_num)
      simp only [this]
      rw [show (exControl 1).volumeTurbine = 20 from rfl, show (computeConstants 287 (7 / 5)).gamma = 7 / 5 from rfl]; norm_num)).2.1

end Fub
