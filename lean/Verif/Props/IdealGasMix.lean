import Verif.Model.IdealGasMix
import Verif.Props.BurkeEnergy
import Mathlib.Algebra.BigOperators.Field

/-!
# Properties of the equations of the ideal gas mixture
-/

namespace Fub

/-! ## Specification -/

/-- Specification: the complete state of a mixture with density `ρ`, velocity `v`, mass fractions `Y`
and temperature `T` under the equation of state `p = ρ R T Σ Y / M`. -/
structure IsMixture {d : ℕ} {S : Type*} [Fintype S] (m : Mechanism S ℝ) (ρ : ℝ) (v : Fin d → ℝ)
    (Y : S → ℝ) (T : ℝ) (q : IgmComplete d S) : Prop where
  density : q.density = ρ
  momentum : ∀ i, q.momentum i = ρ * v i
  species : ∀ i, q.species i = ρ * Y i
  energy : q.energy = ρ * (∑ i, Y i * ((m.thermo T).1 i - m.gasConstant / m.molarMass i * T)) +
    1 / 2 * ρ * ∑ i, v i * v i
  temperature : q.temperature = T
  pressure : q.pressure = ρ * m.gasConstant * T * ∑ i, Y i / m.molarMass i
  cp : q.cp = ∑ i, (m.thermo T).2 i * Y i
  gamma : q.gamma = q.cp / (q.cp - m.gasConstant * ∑ i, Y i / m.molarMass i)
  speedOfSound : q.speedOfSound = Real.sqrt (q.gamma * q.pressure / q.density)

section generic
variable {d : ℕ} {S : Type*} [Fintype S]

theorem igmKinetic_velocity (ρ : ℝ) (hρ : ρ ≠ 0) (v : Fin d → ℝ) :
    igmKinetic ρ (fun i => ρ * v i) = 1 / 2 * ρ * ∑ i, v i * v i := by
  unfold igmKinetic
  have h : ∑ i, ρ * v i * (ρ * v i) = ρ * ρ * ∑ i, v i * v i := by
    rw [Finset.mul_sum]
    exact Finset.sum_congr rfl fun i _ => by ring
  rw [h]
  field_simp

/-- **C128** What `CompleteFromReactor` writes is the complete state of the reactor's mixture, if the
tables of the reactor are those of its temperature. -/
theorem igm_complete_from_reactor (m : Mechanism S ℝ) (s : ReactorState S ℝ) (v : Fin d → ℝ)
    (hs : Cached m s) (hT : s.thermoTemp = s.temperature) (hρ : s.density ≠ 0) :
    IsMixture m s.density v s.massFractions s.temperature (igmCompleteFromReactor m s v) := by
  obtain ⟨h1, h2⟩ := hs
  rw [hT] at h1 h2
  have hp : s.pressure m = s.density * m.gasConstant * s.temperature *
      ∑ i, s.massFractions i / m.molarMass i := by
    unfold ReactorState.pressure ReactorState.meanMolarMass
    rw [div_div_eq_mul_div, div_one]
    ring
  refine ⟨rfl, fun _ => rfl, fun _ => rfl, ?_, rfl, hp, ?_, ?_, rfl⟩
  · show s.density * s.internalEnergy m + igmKinetic s.density (fun i => s.density * v i) = _
    rw [igmKinetic_velocity _ hρ]
    congr 2
    rw [← h1]
    unfold ReactorState.internalEnergy ReactorState.enthalpy ReactorState.meanY
    rw [Finset.mul_sum, Finset.sum_mul, ← Finset.sum_sub_distrib]
    exact Finset.sum_congr rfl fun i _ => by ring
  · rw [← h2]
    rfl
  · show s.cp / s.cv m = s.cp / _
    unfold ReactorState.cv ReactorState.meanMolarMass
    rw [div_div_eq_mul_div, div_one]
    rfl

omit [Fintype S] in
theorem setTemperature_fields (m : Mechanism S ℝ) (s : ReactorState S ℝ) (T : ℝ) (hs : Cached m s) :
    s.setTemperature m T = { s with temperature := T, thermoTemp := T, enthalpies := (m.thermo T).1, heatCapacities := (m.thermo T).2 } := by
  obtain ⟨h1, h2⟩ := hs
  unfold ReactorState.setTemperature ReactorState.updateThermo
  split_ifs with h
  · have h' : s.thermoTemp = T := h
    subst h'
    rw [← h1, ← h2]
  · rfl

omit [Fintype S] in
/-- **C128** The temperatures which the iteration tries leave no trace in the reactor: the state
after a second `SetTemperature` is the same as without the first. -/
theorem igm_last_temperature (m : Mechanism S ℝ) (s : ReactorState S ℝ) (T T' : ℝ)
    (hs : Cached m s) : (s.setTemperature m T).setTemperature m T' = s.setTemperature m T' := by
  rw [setTemperature_fields m s T hs, setTemperature_fields m s T' hs, setTemperature_fields]
  exact ⟨rfl, rfl⟩

theorem igmLoad_eq (m : Mechanism S ℝ) (c : IgmCons d S) (s s' : ReactorState S ℝ)
    (hs : Cached m s) (hs' : Cached m s') : igmLoad m c s = igmLoad m c s' := by
  unfold igmLoad
  rw [setTemperature_fields m _ 300 (show Cached m ((s.setDensity c.density).setMassFractions m c.species) from hs),
    setTemperature_fields m _ 300 (show Cached m ((s'.setDensity c.density).setMassFractions m c.species) from hs')]
  rfl

/-- **C128** `CompleteFromCons` has no memory: whatever was done with the reactor before, the
complete state (or the exception) and the state of the reactor afterwards are the same. -/
theorem igm_complete_history (m : Mechanism S ℝ) (s s' : ReactorState S ℝ) (hs : Cached m s)
    (hs' : Cached m s') (c : IgmCons d S) :
    igmCompleteFromCons m s c = igmCompleteFromCons m s' c := by
  unfold igmCompleteFromCons
  rw [igmLoad_eq m c s s' hs hs']

theorem igmLoad_spec (m : Mechanism S ℝ) (c : IgmCons d S) (s : ReactorState S ℝ)
    (hs : Cached m s) :
    Cached m (igmLoad m c s) ∧ (igmLoad m c s).density = c.density ∧
    (igmLoad m c s).temperature = 300 ∧
    (igmLoad m c s).massFractions = (s.setMassFractions m c.species).massFractions := by
  unfold igmLoad
  rw [setTemperature_fields m _ 300 (show Cached m ((s.setDensity c.density).setMassFractions m c.species) from hs)]
  exact ⟨⟨rfl, rfl⟩, rfl, rfl, rfl⟩

/-- **C128** What is conserved is kept. Whenever `CompleteFromCons` returns, the complete state is
that of a mixture with the given density and momentum, exactly; its mass fractions are the clipped
and normalised species, so that partial densities which are non-negative and sum to the density are
kept exactly; its temperature is the one the iteration found for the internal energy. -/
theorem igm_complete_conserves (m : Mechanism S ℝ) (s s' : ReactorState S ℝ) (hs : Cached m s)
    (c : IgmCons d S) (q : IgmComplete d S) (hρ : 0 < c.density) (hc : ∃ i, 0 < c.species i)
    (h : igmCompleteFromCons m s c = some (s', q)) :
    ∃ Y : S → ℝ, (∀ i, 0 ≤ Y i) ∧ ∑ i, Y i = 1 ∧
      (∀ i, Y i * ∑ j, max 0 (c.species j) = max 0 (c.species i)) ∧
      IsMixture m c.density (fun i => c.momentum i / c.density) Y q.temperature q ∧
      q.density = c.density ∧ q.momentum = c.momentum ∧
      ((∀ i, 0 ≤ c.species i) → ∑ i, c.species i = c.density → q.species = c.species) ∧
      setEnergy (fun T => ∑ i, Y i * ((m.thermo T).1 i - m.gasConstant / m.molarMass i * T))
        (fun T => ∑ i, (m.thermo T).2 i * Y i - m.gasConstant * ∑ i, Y i / m.molarMass i)
        ((c.energy - 1 / 2 * (∑ i, c.momentum i * c.momentum i) / c.density) / c.density)
        1e-6 300 = some q.temperature := by
  obtain ⟨l1, l2, l3, l4⟩ := igmLoad_spec m c s hs
  obtain ⟨y1, y2, y3, -, -, -⟩ := set_mass_fractions_spec m s c.species hc
  rw [← l4] at y1 y2 y3
  unfold igmCompleteFromCons ReactorState.setInternalEnergy at h
  generalize igmLoad m c s = s1 at *
  rw [l3] at h
  obtain ⟨sT, hsT, hq⟩ := Option.map_eq_some_iff.mp h
  obtain ⟨T, hT, hsT⟩ := Option.map_eq_some_iff.mp hsT
  have hq1 : sT = s' := congrArg Prod.fst hq
  have hq2 : igmCompleteFromReactor m sT (igmVelocity c) = q := congrArg Prod.snd hq
  have hfields := setTemperature_fields m s1 T l1
  rw [hsT] at hfields
  have hmix := igm_complete_from_reactor m sT (igmVelocity c) (by rw [hfields]; exact ⟨rfl, rfl⟩)
    (by rw [hfields]) (by rw [hfields]; show s1.density ≠ 0; rw [l2]; exact ne_of_gt hρ)
  rw [hq2] at hmix
  have hd : sT.density = c.density := by rw [hfields]; exact l2
  have hYY : sT.massFractions = s1.massFractions := by rw [hfields]
  have hTT : sT.temperature = T := by rw [hfields]
  rw [hd, hYY, hTT] at hmix
  have hqT : q.temperature = T := hmix.temperature
  refine ⟨s1.massFractions, y1, y2, y3, ?_, hmix.density, ?_, ?_, ?_⟩
  · rw [hqT]
    exact hmix
  · funext i
    rw [hmix.momentum]
    show c.density * (c.momentum i / c.density) = _
    rw [mul_div_cancel₀ _ (ne_of_gt hρ)]
  · intro hnn hsum
    funext i
    rw [hmix.species]
    have h3 := y3 i
    simp only [max_eq_right (hnn _)] at h3
    rw [hsum] at h3
    linarith [mul_comm c.density (s1.massFractions i)]
  · rw [hqT, ← hT]
    congr 1
    · funext t
      rw [setTemperature_fields m s1 t l1]
      unfold ReactorState.internalEnergy ReactorState.enthalpy ReactorState.meanY
      rw [Finset.mul_sum, Finset.sum_mul, ← Finset.sum_sub_distrib]
      exact Finset.sum_congr rfl fun i _ => by ring
    · funext t
      rw [setTemperature_fields m s1 t l1]
      unfold ReactorState.cv ReactorState.cp ReactorState.meanY ReactorState.meanMolarMass
      rw [div_div_eq_mul_div, div_one]

/-- **C128** Partial densities which do not sum to the density are not kept: the sum of the species
of every completed state is the density, whatever it was before. -/
theorem igm_complete_species_sum (m : Mechanism S ℝ) (s s' : ReactorState S ℝ) (hs : Cached m s)
    (c : IgmCons d S) (q : IgmComplete d S) (hρ : 0 < c.density) (hc : ∃ i, 0 < c.species i)
    (h : igmCompleteFromCons m s c = some (s', q)) :
    ∑ i, q.species i = c.density ∧ (∑ i, c.species i ≠ c.density → q.species ≠ c.species) := by
  obtain ⟨Y, -, h1, -, hmix, -⟩ := igm_complete_conserves m s s' hs c q hρ hc h
  have hsum : ∑ i, q.species i = c.density := by
    simp only [hmix.species]
    rw [← Finset.mul_sum, h1, mul_one]
  exact ⟨hsum, fun hne he => hne (he ▸ hsum)⟩

end generic

/-! ## The tables of `Burke2012` -/

section burke
variable {d : ℕ}

theorem burke_mean_bound (Y : BSp → ℝ) (hY : ∀ i, 0 ≤ Y i) (h1 : ∑ i, Y i = 1) :
    0 < ∑ i, Y i / (burkeMolarMass i : ℝ) ∧ 8314.462175 * ∑ i, Y i / (burkeMolarMass i : ℝ) ≤ 8400 := by
  have hpos : ∀ i, 0 ≤ Y i / (burkeMolarMass i : ℝ) := fun i =>
    div_nonneg (hY i) (burkeMolarMass_pos i).le
  constructor
  · obtain ⟨i, hi⟩ : ∃ i, 0 < Y i := by
      by_contra hcon
      push Not at hcon
      have : ∑ i, Y i = 0 := Finset.sum_eq_zero fun i _ => le_antisymm (hcon i) (hY i)
      rw [h1] at this
      exact one_ne_zero this
    exact Finset.sum_pos' (fun i _ => hpos i) ⟨i, Finset.mem_univ i, div_pos hi (burkeMolarMass_pos i)⟩
  · have h2 : ∑ i, Y i * (8400 : ℝ) = 8400 := by rw [← Finset.sum_mul, h1, one_mul]
    rw [← h2, Finset.mul_sum]
    refine Finset.sum_le_sum fun i _ => ?_
    have h3 : 8314.462175 / (burkeMolarMass i : ℝ) ≤ 8400 := by
      cases i <;> norm_num [burkeMolarMass]
    have h4 := mul_le_mul_of_nonneg_left h3 (hY i)
    calc 8314.462175 * (Y i / (burkeMolarMass i : ℝ)) =
        Y i * (8314.462175 / (burkeMolarMass i : ℝ)) := by ring
      _ ≤ _ := h4

/-- **C128** The round trip. Take the complete state `q` of any mixture of the Burke 2012 species
with positive density, any velocity and a temperature from 300 K to 2500 K outside of one kelvin
around the seam of the tables. Then `CompleteFromCons` of its conservative variables, on a reactor
with any history, raises no exception, meets its assertions and gives a state of the same mixture:
density, momentum and species are exactly those of `q`, the temperature is within half a
millikelvin, the pressure within `4.2 ρ` Pa and the energy within `17 ρ` J/m³. -/
theorem igm_round_trip_partial (s : ReactorState BSp ℝ) (hs : Cached burkeReactor s) (ρ : ℝ)
    (hρ : 0 < ρ) (v : Fin d → ℝ) (Y : BSp → ℝ) (hY : ∀ i, 0 ≤ Y i) (h1 : ∑ i, Y i = 1) (Ts : ℝ)
    (hT1 : 300 ≤ Ts) (hT2 : Ts ≤ 2500) (hseam : Ts ≤ 999 ∨ 1001 ≤ Ts) (q : IgmComplete d BSp)
    (hq : IsMixture burkeReactor ρ v Y Ts q) :
    ∃ s' q', igmCompleteFromCons burkeReactor s q.toIgmCons = some (s', q') ∧
      IsMixture burkeReactor ρ v Y q'.temperature q' ∧ igmAssertions burkeReactor s' ∧
      q'.density = q.density ∧ q'.momentum = q.momentum ∧ q'.species = q.species ∧
      |q'.temperature - q.temperature| ≤ 5e-4 ∧ |q'.pressure - q.pressure| ≤ 4.2 * ρ ∧
      |q'.energy - q.energy| ≤ 17 * ρ := by
  have hsp : q.species = fun i => ρ * Y i := funext hq.species
  have hpos : ∃ i, 0 < q.species i := by
    by_contra hcon
    push Not at hcon
    have h0 : ∑ i, q.species i ≤ 0 := Finset.sum_nonpos fun i _ => hcon i
    rw [hsp] at h0
    rw [← Finset.mul_sum, h1] at h0
    linarith
  obtain ⟨l1, l2, l3, l4⟩ := igmLoad_spec burkeReactor q.toIgmCons s hs
  have hYl : (igmLoad burkeReactor q.toIgmCons s).massFractions = Y := by
    rw [l4]
    show (s.setMassFractions burkeReactor q.species).massFractions = Y
    rw [hsp]
    exact set_mass_fractions_densities burkeReactor s ρ Y hρ hY h1
  have hD : q.toIgmCons.density = ρ := hq.density
  rw [hD] at l2
  -- the internal energy
  have hkin : igmKinetic q.density q.momentum = 1 / 2 * ρ * ∑ i, v i * v i := by
    rw [hq.density, show q.momentum = fun i => ρ * v i from funext hq.momentum]
    exact igmKinetic_velocity ρ (ne_of_gt hρ) v
  obtain ⟨T, hT, hclose, hen⟩ := burke_temperature_round_trip_partial
    (igmLoad burkeReactor q.toIgmCons s) l1 (by rw [hYl]; exact hY) (by rw [hYl]; exact h1) Ts hT1 hT2
    hseam
  have hU : ∀ t, energyAt (igmLoad burkeReactor q.toIgmCons s) t =
      ∑ i, Y i * ((burkeReactor.thermo t).1 i -
        burkeReactor.gasConstant / burkeReactor.molarMass i * t) := fun t => by
    rw [energyAt_eq _ l1, hYl]
    rfl
  have he : (q.energy - igmKinetic q.density q.momentum) / q.density =
      energyAt (igmLoad burkeReactor q.toIgmCons s) Ts := by
    rw [hkin, hq.energy, hq.density, hU]
    field_simp
    ring
  have hrun : (igmLoad burkeReactor q.toIgmCons s).setInternalEnergy burkeReactor
      ((q.energy - igmKinetic q.density q.momentum) / q.density) =
      some ((igmLoad burkeReactor q.toIgmCons s).setTemperature burkeReactor T) := by
    unfold ReactorState.setInternalEnergy
    rw [l3, he]
    have h2 : setEnergy (fun t => ((igmLoad burkeReactor q.toIgmCons s).setTemperature burkeReactor
        t).internalEnergy burkeReactor)
        (fun t => ((igmLoad burkeReactor q.toIgmCons s).setTemperature burkeReactor t).cv
          burkeReactor) (energyAt (igmLoad burkeReactor q.toIgmCons s) Ts) 1e-6 300 = some T := hT
    rw [h2]
    rfl
  have hret : igmCompleteFromCons burkeReactor s q.toIgmCons =
      some ((igmLoad burkeReactor q.toIgmCons s).setTemperature burkeReactor T,
        igmCompleteFromReactor burkeReactor
          ((igmLoad burkeReactor q.toIgmCons s).setTemperature burkeReactor T)
          (igmVelocity q.toIgmCons)) := by
    unfold igmCompleteFromCons
    rw [hrun]
    rfl
  have hfields := setTemperature_fields burkeReactor _ T l1
  generalize hs1 : igmLoad burkeReactor q.toIgmCons s = s1 at *
  generalize hsT : s1.setTemperature burkeReactor T = sT at *
  have e1 : sT.density = ρ := by rw [hfields]; exact l2
  have e2 : sT.massFractions = Y := by rw [hfields]; exact hYl
  have e3 : sT.temperature = T := by rw [hfields]
  have hv : igmVelocity q.toIgmCons = v := by
    funext i
    show q.momentum i / q.density = v i
    rw [hq.momentum, hq.density, mul_div_cancel_left₀ _ (ne_of_gt hρ)]
  have hmix := igm_complete_from_reactor burkeReactor sT (igmVelocity q.toIgmCons)
    (by rw [hfields]; exact ⟨rfl, rfl⟩) (by rw [hfields]) (by rw [e1]; exact ne_of_gt hρ)
  rw [e1, e2, e3, hv] at hmix
  rw [hv] at hret
  generalize igmCompleteFromReactor burkeReactor sT v = q' at *
  have hTpos : 0 < T := by
    have := (abs_le.mp hclose).1
    norm_num at this
    linarith
  obtain ⟨hm0, hm1⟩ := burke_mean_bound Y hY h1
  have hTle : T ≤ 5000 := by
    have := (abs_le.mp hclose).2
    norm_num at this
    linarith
  refine ⟨sT, q', hret, ?_, ?_, ?_, ?_, ?_, ?_, ?_, ?_⟩
  · rw [hmix.temperature]
    exact hmix
  · -- assertions
    have hne : ∃ i, Y i ≠ 0 := by
      by_contra hcon
      push Not at hcon
      simp only [hcon, Finset.sum_const_zero] at h1
      exact zero_ne_one h1
    have hg := burke_gamma_range Y hY hne T hTle
    have hγ : igmGamma burkeReactor sT = (∑ i, (burkeThermo T).2 i * Y i) /
        (∑ i, (burkeThermo T).2 i * Y i - 8314.462175 * ∑ i, Y i / burkeMolarMass i) := by
      unfold igmGamma ReactorState.cv ReactorState.cp ReactorState.meanY ReactorState.meanMolarMass
      rw [div_div_eq_mul_div, div_one, e2, hfields]
      rfl
    have hp : 0 < sT.pressure burkeReactor := by
      unfold ReactorState.pressure ReactorState.meanMolarMass
      rw [div_div_eq_mul_div, div_one, e1, e2, e3]
      have : 0 < burkeReactor.gasConstant := by show (0 : ℝ) < 8314.462175; norm_num
      exact mul_pos (mul_pos (mul_pos hρ this) hm0) hTpos
    have hd : 0 < sT.density := by rw [e1]; exact hρ
    have hg1 : 1 < igmGamma burkeReactor sT ∧ igmGamma burkeReactor sT ≤ 2 := by
      rw [hγ]
      exact hg.2
    exact ⟨hg1, hp, hd, Real.sqrt_pos.mpr (div_pos (mul_pos (by linarith [hg1.1]) hp) hd)⟩
  · rw [hmix.density, hq.density]
  · funext i
    rw [hmix.momentum, hq.momentum]
  · funext i
    rw [hmix.species, hq.species]
  · rw [hmix.temperature, hq.temperature]
    exact hclose
  · rw [hmix.pressure, hq.pressure]
    have e : ρ * burkeReactor.gasConstant * T * ∑ i, Y i / burkeReactor.molarMass i -
        ρ * burkeReactor.gasConstant * Ts * ∑ i, Y i / burkeReactor.molarMass i =
        (ρ * (8314.462175 * ∑ i, Y i / burkeMolarMass i)) * (T - Ts) := by
      show ρ * 8314.462175 * T * ∑ i, Y i / burkeMolarMass i -
        ρ * 8314.462175 * Ts * ∑ i, Y i / burkeMolarMass i = _
      ring
    rw [e, abs_mul, abs_of_nonneg (by positivity)]
    calc _ ≤ ρ * 8400 * 5e-4 := mul_le_mul (mul_le_mul_of_nonneg_left hm1 hρ.le) hclose (abs_nonneg _)
          (by positivity)
      _ = 4.2 * ρ := by ring
  · rw [hmix.energy, hq.energy, ← hU, ← hU]
    rw [show ρ * energyAt s1 T + 1 / 2 * ρ * ∑ i, v i * v i -
      (ρ * energyAt s1 Ts + 1 / 2 * ρ * ∑ i, v i * v i) =
      ρ * (energyAt s1 T - energyAt s1 Ts) by ring, abs_mul, abs_of_pos hρ]
    linarith [mul_le_mul_of_nonneg_left hen hρ.le]

/-- Non-vacuity: moist air at 1500 K which moves with 100 m/s is such a mixture. -/
example : ∃ q : IgmComplete 2 BSp, IsMixture burkeReactor (1 / 2)
    (fun i => if i = 0 then 100 else 0)
    (fun i => if i = .N2 then 7 / 10 else if i = .O2 then 2 / 10 else if i = .H2O then 1 / 10 else 0)
    1500 q := by
  let s : ReactorState BSp ℝ :=
    { massFractions := fun i => if i = .N2 then 7 / 10 else if i = .O2 then 2 / 10 else
        if i = .H2O then 1 / 10 else 0
      moles := fun _ => 0, temperature := 1500, density := 1 / 2, thermoTemp := 1500
      enthalpies := (burkeReactor.thermo 1500).1, heatCapacities := (burkeReactor.thermo 1500).2 }
  exact ⟨_, igm_complete_from_reactor burkeReactor s (fun i => if i = 0 then 100 else 0) ⟨rfl, rfl⟩ rfl
    (show (1 / 2 : ℝ) ≠ 0 by norm_num)⟩

end burke

end Fub
