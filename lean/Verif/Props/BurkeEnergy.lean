import Verif.Lemmas.BurkeEnergy
import Verif.Props.Newton
import Verif.Props.Reactor
import Verif.Props.BurkeThermo

/-!
# The reactor with the tables of `Burke2012` finds the temperature of every mixture
-/

namespace Fub

/-- The internal energy which the reactor reports after `SetTemperature`. -/
noncomputable def energyAt (s : ReactorState BSp ℝ) (T : ℝ) : ℝ :=
  (s.setTemperature burkeReactor T).internalEnergy burkeReactor

/-- The heat capacity at constant volume which the reactor reports after `SetTemperature`. -/
noncomputable def heatCapacityAt (s : ReactorState BSp ℝ) (T : ℝ) : ℝ :=
  (s.setTemperature burkeReactor T).cv burkeReactor

theorem energyAt_eq (s : ReactorState BSp ℝ) (hs : Cached burkeReactor s) (T : ℝ) :
    energyAt s T = ∑ i, s.massFractions i * burkeU T i := by
  obtain ⟨h1, h2, h3⟩ := updateThermo_cached burkeReactor T
    ({ s with temperature := T } : ReactorState BSp ℝ) hs
  have hY : (s.setTemperature burkeReactor T).massFractions = s.massFractions := by
    unfold ReactorState.setTemperature ReactorState.updateThermo
    split_ifs <;> rfl
  unfold energyAt ReactorState.internalEnergy ReactorState.enthalpy ReactorState.meanY
  have hh : (s.setTemperature burkeReactor T).enthalpies = (burkeThermo T).1 := by
    have := h1.1
    rw [h2] at this
    exact this
  have hT : (s.setTemperature burkeReactor T).temperature = T := h3
  rw [hY, hh, hT, Finset.mul_sum, Finset.sum_mul, ← Finset.sum_sub_distrib]
  refine Finset.sum_congr rfl fun i _ => ?_
  show _ = s.massFractions i * ((burkeThermo T).1 i - 8314.462175 / burkeMolarMass i * T)
  show (burkeThermo T).1 i * s.massFractions i -
    8314.462175 * (s.massFractions i / burkeMolarMass i) * T = _
  ring

theorem heatCapacityAt_eq (s : ReactorState BSp ℝ) (hs : Cached burkeReactor s) (T : ℝ) :
    heatCapacityAt s T = ∑ i, s.massFractions i * burkeCv T i := by
  obtain ⟨h1, h2, -⟩ := updateThermo_cached burkeReactor T
    ({ s with temperature := T } : ReactorState BSp ℝ) hs
  have hY : (s.setTemperature burkeReactor T).massFractions = s.massFractions := by
    unfold ReactorState.setTemperature ReactorState.updateThermo
    split_ifs <;> rfl
  unfold heatCapacityAt ReactorState.cv ReactorState.cp ReactorState.meanY
    ReactorState.meanMolarMass
  have hh : (s.setTemperature burkeReactor T).heatCapacities = (burkeThermo T).2 := by
    have := h1.2
    rw [h2] at this
    exact this
  rw [hY, hh, div_div_eq_mul_div, div_one, Finset.mul_sum, ← Finset.sum_sub_distrib]
  refine Finset.sum_congr rfl fun i _ => ?_
  show (burkeThermo T).2 i * s.massFractions i -
    8314.462175 * (s.massFractions i / burkeMolarMass i) =
    s.massFractions i * ((burkeThermo T).2 i - 8314.462175 / burkeMolarMass i)
  ring

/-- The energy curve of every mixture around every temperature from 300 K to 2500 K which is not
within one kelvin of the seam of the tables. -/
theorem burke_energy_curve (s : ReactorState BSp ℝ) (hs : Cached burkeReactor s)
    (hY : ∀ i, 0 ≤ s.massFractions i) (h1 : ∑ i, s.massFractions i = 1) (Ts : ℝ) (hT1 : 300 ≤ Ts)
    (hT2 : Ts ≤ 2500) (hseam : Ts ≤ 999 ∨ 1001 ≤ Ts) :
    EnergyCurve (energyAt s) (heatCapacityAt s) (energyAt s Ts) Ts 312 17000 0.97 |300 - Ts| := by
  refine ⟨by norm_num, fun T hT => ?_⟩
  have hD : |300 - Ts| = Ts - 300 := by rw [abs_sub_comm, abs_of_nonneg (by linarith)]
  rw [hD, abs_le] at hT
  have hTlo : 300 ≤ T := by linarith [hT.1]
  have hThi : T ≤ 5000 := by linarith [hT.2]
  rw [heatCapacityAt_eq s hs T, energyAt_eq s hs T, energyAt_eq s hs Ts]
  have hsum : ∀ a b : BSp → ℝ, (∀ i, a i ≤ b i) →
      ∑ i, s.massFractions i * a i ≤ ∑ i, s.massFractions i * b i := fun a b h =>
    Finset.sum_le_sum fun i _ => mul_le_mul_of_nonneg_left (h i) (hY i)
  have hconst : ∀ c : ℝ, ∑ i, s.massFractions i * c = c := fun c => by
    rw [← Finset.sum_mul, h1, one_mul]
  have hdiff : ∀ a b : ℝ, ∑ i, s.massFractions i * burkeU a i - ∑ i, s.massFractions i * burkeU b i =
      ∑ i, s.massFractions i * (burkeU a i - burkeU b i) := fun a b => by
    rw [← Finset.sum_sub_distrib]
    exact Finset.sum_congr rfl fun i _ => by ring
  have hscale : ∀ c d : ℝ, c * (∑ i, s.massFractions i * burkeCv T i) * d =
      ∑ i, s.massFractions i * (c * burkeCv T i * d) := fun c d => by
    rw [Finset.mul_sum, Finset.sum_mul]
    exact Finset.sum_congr rfl fun i _ => by ring
  refine ⟨⟨?_, ?_⟩, fun hle => ?_, fun hle => ?_⟩
  · rw [← hconst 312]
    refine hsum _ _ fun i => ?_
    exact le_trans (burkeCv_constants i).1 (burkeCv_range T hTlo hThi i).1
  · rw [← hconst 17000]
    refine hsum _ _ fun i => ?_
    exact le_trans (burkeCv_range T hTlo hThi i).2.1 (burkeCv_constants i).2.2.2.2.2.2.1
  · rw [hdiff, hscale, hscale]
    have hd : 0 ≤ T - Ts := by linarith
    have hl : 1000 < Ts ∨ T ≤ 1000 ∨ 1 ≤ T - Ts := by
      rcases hseam with h | h
      · rcases le_or_gt T 1000 with h' | h'
        · exact Or.inr (Or.inl h')
        · exact Or.inr (Or.inr (by linarith))
      · exact Or.inl (by linarith)
    constructor
    · refine hsum _ _ fun i => ?_
      obtain ⟨k1, k2, k3, k4, k5, k6, k7, k8⟩ := burkeCv_constants i
      obtain ⟨c1, c2, c3, c4⟩ := burkeCv_range T hTlo hThi i
      obtain ⟨s1, s2, s3⟩ := burkeU_secant i Ts T hT1 hle hThi hl
      refine le_trans (mul_le_mul_of_nonneg_right ?_ hd) s1
      norm_num at *
      linarith
    · refine hsum _ _ fun i => ?_
      obtain ⟨k1, k2, k3, k4, k5, k6, k7, k8⟩ := burkeCv_constants i
      obtain ⟨c1, c2, c3, c4⟩ := burkeCv_range T hTlo hThi i
      obtain ⟨s1, s2, s3⟩ := burkeU_secant i Ts T hT1 hle hThi hl
      rcases le_total T 2500 with h | h
      · refine le_trans (s3 h) (mul_le_mul_of_nonneg_right ?_ hd)
        norm_num at *
        linarith
      · have c4' := c4 h
        refine le_trans s2 (mul_le_mul_of_nonneg_right ?_ hd)
        norm_num at *
        linarith
  · rw [hdiff, hscale, hscale]
    have hd : 0 ≤ Ts - T := by linarith
    have hl : 1000 < T ∨ Ts ≤ 1000 ∨ 1 ≤ Ts - T := by
      rcases hseam with h | h
      · exact Or.inr (Or.inl (by linarith))
      · rcases le_or_gt T 1000 with h' | h'
        · exact Or.inr (Or.inr (by linarith))
        · exact Or.inl h'
    constructor
    · refine hsum _ _ fun i => ?_
      obtain ⟨k1, k2, k3, k4, k5, k6, k7, k8⟩ := burkeCv_constants i
      obtain ⟨c1, c2, c3, c4⟩ := burkeCv_range T hTlo hThi i
      obtain ⟨s1, s2, s3⟩ := burkeU_secant i T Ts hTlo hle (by linarith) hl
      refine le_trans (mul_le_mul_of_nonneg_right ?_ hd) s1
      norm_num at *
      linarith
    · refine hsum _ _ fun i => ?_
      obtain ⟨k1, k2, k3, k4, k5, k6, k7, k8⟩ := burkeCv_constants i
      obtain ⟨c1, c2, c3, c4⟩ := burkeCv_range T hTlo hThi i
      obtain ⟨s1, s2, s3⟩ := burkeU_secant i T Ts hTlo hle (by linarith) hl
      refine le_trans (s3 hT2) (mul_le_mul_of_nonneg_right ?_ hd)
      norm_num at *
      linarith

theorem newton_power : 2 * ((0.97 : ℝ) ^ 800 * (100 / (1 - 0.97))) < 1e-6 := by
  have h : (0.97 : ℝ) ^ 800 = ((0.97 : ℝ) ^ 25) ^ 32 := by rw [← pow_mul]
  have h1 : (0.97 : ℝ) ^ 25 ≤ 0.467 := by norm_num
  have h2 : (0 : ℝ) ≤ (0.97 : ℝ) ^ 25 := by positivity
  have h3 := pow_le_pow_left₀ h2 h1 32
  rw [h]
  have h4 : (0.467 : ℝ) ^ 32 * (2 * (100 / (1 - 0.97))) < 1e-6 := by norm_num
  have h5 : (0 : ℝ) ≤ 2 * (100 / (1 - 0.97)) := by norm_num
  have h6 := mul_le_mul_of_nonneg_right h3 h5
  linarith [show 2 * (((0.97 : ℝ) ^ 25) ^ 32 * (100 / (1 - 0.97))) =
    ((0.97 : ℝ) ^ 25) ^ 32 * (2 * (100 / (1 - 0.97))) by ring]

theorem burke_accuracy (s : ReactorState BSp ℝ) (hs : Cached burkeReactor s)
    (hY : ∀ i, 0 ≤ s.massFractions i) (h1 : ∑ i, s.massFractions i = 1) (Ts : ℝ) (hT1 : 300 ≤ Ts)
    (hT2 : Ts ≤ 2500) (hseam : Ts ≤ 999 ∨ 1001 ≤ Ts) (T : ℝ)
    (hacc : NewtonAccuracy (energyAt s Ts) Ts |300 - Ts| 312 17000 0.97 1e-6 T) :
    |T - Ts| ≤ 5e-4 ∧ |energyAt s T - energyAt s Ts| ≤ 17 := by
  suffices hclose : |T - Ts| ≤ 5e-4 by
    refine ⟨hclose, ?_⟩
    obtain ⟨⟨c1, c2⟩, hup, hdn⟩ := (burke_energy_curve s hs hY h1 Ts hT1 hT2 hseam).2 T hacc.1
    generalize heatCapacityAt s T = C at *
    have hb : ∀ e : ℝ, 0 ≤ e → e ≤ 5e-4 → (1 + 0.97) * C * e ≤ 17 := fun e h0 he => by
      have h2 : (1 + 0.97) * C * e ≤ (1 + 0.97) * 17000 * 5e-4 :=
        mul_le_mul (by linarith) he h0 (by norm_num)
      norm_num at h2 ⊢
      linarith
    have hp : ∀ e : ℝ, 0 ≤ e → 0 ≤ (1 - 0.97) * C * e := fun e h0 =>
      mul_nonneg (mul_nonneg (by norm_num) (by linarith)) h0
    have hcl := abs_le.mp hclose
    rcases le_total Ts T with h | h
    · have hu := hup h
      have h4 := hb (T - Ts) (by linarith) hcl.2
      have h5 := hp (T - Ts) (by linarith)
      rw [abs_of_nonneg (by linarith [hu.1])]
      linarith [hu.2]
    · have hu := hdn h
      have h4 := hb (Ts - T) (by linarith) (by linarith [hcl.1])
      have h5 := hp (Ts - T) (by linarith)
      rw [abs_sub_comm, abs_of_nonneg (by linarith [hu.1])]
      linarith [hu.2]
  have hacc := hacc.2
  have hE : |energyAt s Ts| ≤ 300000000 := by
    rw [energyAt_eq s hs Ts, abs_le]
    have hc : ∀ c : ℝ, ∑ i, s.massFractions i * c = c := fun c => by
      rw [← Finset.sum_mul, h1, one_mul]
    constructor
    · rw [← hc (-300000000)]
      exact Finset.sum_le_sum fun i _ =>
        mul_le_mul_of_nonneg_left (abs_le.mp (burkeU_size i Ts hT1 hT2)).1 (hY i)
    · rw [← hc 300000000]
      exact Finset.sum_le_sum fun i _ =>
        mul_le_mul_of_nonneg_left (abs_le.mp (burkeU_size i Ts hT1 hT2)).2 (hY i)
  rcases hacc with h | h
  · refine le_trans h ?_
    norm_num
  · have hm : max |energyAt s Ts| (max 17000 (1 / 100000) * 1e-6) ≤ 300000000 :=
      max_le hE (by norm_num)
    have h2 : max |energyAt s Ts| (max 17000 (1 / 100000) * 1e-6) * (1 / 100000 * 1e-6) ≤
        300000000 * (1 / 100000 * 1e-6) := mul_le_mul_of_nonneg_right hm (by norm_num)
    have h3 := le_trans h h2
    norm_num at h3 ⊢
    linarith

/-- **C127** Energy and temperature are inverse to each other. For every mixture and every
temperature from 300 K to 2500 K which is not within one kelvin of the seam of the tables at 1000 K:
the reactor which is given the internal energy of this temperature, starting at 300 K as
`CompleteFromCons` does, does not raise an exception and ends within half a millikelvin of this
temperature, with an internal energy which differs by at most 17 J/kg. -/
theorem burke_temperature_round_trip_partial (s : ReactorState BSp ℝ) (hs : Cached burkeReactor s)
    (hY : ∀ i, 0 ≤ s.massFractions i) (h1 : ∑ i, s.massFractions i = 1) (Ts : ℝ) (hT1 : 300 ≤ Ts)
    (hT2 : Ts ≤ 2500) (hseam : Ts ≤ 999 ∨ 1001 ≤ Ts) :
    ∃ T, setEnergy (energyAt s) (heatCapacityAt s) (energyAt s Ts) 1e-6 300 = some T ∧
      |T - Ts| ≤ 5e-4 ∧ |energyAt s T - energyAt s Ts| ≤ 17 := by
  have hD : |300 - Ts| = Ts - 300 := by rw [abs_sub_comm, abs_of_nonneg (by linarith)]
  obtain ⟨T, hT, hacc⟩ := set_energy_converges (energyAt s) (heatCapacityAt s) (energyAt s Ts) Ts 312
    17000 0.97 1e-6 300 0 800 (burke_energy_curve s hs hY h1 Ts hT1 hT2 hseam) (by norm_num)
    (by norm_num) (by rw [hD]; norm_num; linarith) newton_power (by norm_num)
  exact ⟨T, hT, burke_accuracy s hs hY h1 Ts hT1 hT2 hseam T hacc⟩

/-- **C127** The array versions likewise, for every number of lanes with different mixtures and
temperatures, and every mask. -/
theorem burke_temperature_lanes_partial {ι : Type*} [Fintype ι] (mask : ι → Bool)
    (s : ι → ReactorState BSp ℝ) (hs : ∀ l, Cached burkeReactor (s l))
    (hY : ∀ l, mask l = true → ∀ i, 0 ≤ (s l).massFractions i)
    (h1 : ∀ l, mask l = true → ∑ i, (s l).massFractions i = 1) (Ts : ι → ℝ)
    (target : ι → ℝ) (htarget : ∀ l, mask l = true → target l = energyAt (s l) (Ts l))
    (hT1 : ∀ l, mask l = true → 300 ≤ Ts l) (hT2 : ∀ l, mask l = true → Ts l ≤ 2500)
    (hseam : ∀ l, mask l = true → Ts l ≤ 999 ∨ 1001 ≤ Ts l) :
    ∃ T, setEnergyLanes mask (fun l => energyAt (s l)) (fun l => heatCapacityAt (s l)) target 1e-6
        (fun _ => 300) = some T ∧
      (∀ l, mask l = true → |T l - Ts l| ≤ 5e-4 ∧
        |energyAt (s l) (T l) - energyAt (s l) (Ts l)| ≤ 17) ∧
      ∀ l, mask l = false → T l = 300 := by
  obtain ⟨T, hT, hacc, h300⟩ := set_energy_lanes_converge mask (fun l => energyAt (s l))
    (fun l => heatCapacityAt (s l)) target Ts (fun _ => 312) (fun _ => 17000) (fun _ => 0.97)
    (fun _ => 300) 1e-6 0 800
    (fun l hl => by
      rw [htarget l hl]
      exact burke_energy_curve (s l) (hs l) (hY l hl) (h1 l hl) (Ts l) (hT1 l hl) (hT2 l hl)
        (hseam l hl))
    (by norm_num) (by norm_num)
    (fun l hl => by
      have h2 := hT1 l hl
      have h3 := hT2 l hl
      rw [abs_sub_comm, abs_of_nonneg (by linarith)]
      norm_num
      linarith)
    (fun l hl => newton_power) (by norm_num)
  refine ⟨T, hT, fun l hl => ?_, h300⟩
  have ha := hacc l hl
  rw [htarget l hl] at ha
  exact burke_accuracy (s l) (hs l) (hY l hl) (h1 l hl) (Ts l) (hT1 l hl) (hT2 l hl) (hseam l hl) _ ha

/-- Non-vacuity: every reactor whose composition was set is such a mixture. -/
example (y : BSp → ℝ) (hy : ∃ i, 0 < y i) :
    let s := (freshReactor burkeReactor .N2).setMassFractions burkeReactor y
    Cached burkeReactor s ∧ (∀ i, 0 ≤ s.massFractions i) ∧ ∑ i, s.massFractions i = 1 := by
  have h := set_mass_fractions_spec burkeReactor (freshReactor burkeReactor .N2) y hy
  exact ⟨(fresh_cached burkeReactor .N2).1, h.1, h.2.1⟩

end Fub
