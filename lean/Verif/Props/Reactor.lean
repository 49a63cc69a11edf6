import Verif.Model.Reactor
import Verif.Props.Burke
import Mathlib.Analysis.Calculus.Deriv.Mul
import Mathlib.Analysis.Calculus.Deriv.Add
import Mathlib.Analysis.Calculus.Deriv.Comp
import Mathlib.Analysis.Calculus.MeanValue
import Mathlib.Analysis.SpecialFunctions.ExpDeriv
import Mathlib.Algebra.BigOperators.Field
import Mathlib.Tactic.FieldSimp
import Mathlib.Tactic.Ring
import Mathlib.Tactic.Linarith
import Mathlib.Tactic.NormNum
import Mathlib.Tactic.Positivity

/-!
# Properties of the reactor
-/

namespace Fub

/-! ## Histories of calls -/

section
variable {S K : Type*} [Fintype S] [Field K] [LinearOrder K]

/-- Specification: after which histories the caller may trust the cached tables. `Advance` leaves
them at a temperature which the ODE solver visited; setting the temperature or asking for the
species enthalpies refreshes them. -/
def tablesFresh : List (ReactorCall S K) → Bool → Bool
  | [], b => b
  | .advance _ :: cs, _ => tablesFresh cs false
  | .setTemperature _ :: cs, _ => tablesFresh cs true
  | .getEnthalpies :: cs, _ => tablesFresh cs true
  | _ :: cs, b => tablesFresh cs b

/-- Effect of a history of calls. -/
def runCalls (m : Mechanism S K) (s : ReactorState S K) (cs : List (ReactorCall S K)) :
    ReactorState S K :=
  cs.foldl (ReactorCall.apply m) s

/-- The tables are those of the temperature they claim to be read at. -/
def Cached (m : Mechanism S K) (s : ReactorState S K) : Prop :=
  s.enthalpies = (m.thermo s.thermoTemp).1 ∧ s.heatCapacities = (m.thermo s.thermoTemp).2

omit [Fintype S] in
theorem updateThermo_cached (m : Mechanism S K) (T : K) (s : ReactorState S K)
    (h : Cached m s) : Cached m (s.updateThermo m T) ∧ (s.updateThermo m T).thermoTemp = T ∧
      (s.updateThermo m T).temperature = s.temperature := by
  unfold ReactorState.updateThermo
  split_ifs with h1
  · exact ⟨h, h1, rfl⟩
  · exact ⟨⟨rfl, rfl⟩, rfl, rfl⟩

omit [Fintype S] in
theorem stages_cached (m : Mechanism S K) (l : List K) (s : ReactorState S K) (h : Cached m s) :
    Cached m (l.foldl (fun x T => x.updateThermo m T) s) := by
  induction l generalizing s with
  | nil => exact h
  | cons T l ih => exact ih _ (updateThermo_cached m T s h).1

omit [Fintype S] in
theorem stages_thermoTemp (m : Mechanism S K) (l : List K) (T : K) (s : ReactorState S K)
    (h : Cached m s) :
    ((l ++ [T]).foldl (fun x T => x.updateThermo m T) s).thermoTemp = T := by
  rw [List.foldl_append]
  exact (updateThermo_cached m T _ (stages_cached m l s h)).2.1

theorem apply_cached (m : Mechanism S K) (s : ReactorState S K) (c : ReactorCall S K)
    (h : Cached m s) : Cached m (c.apply m s) := by
  cases c with
  | setTemperature T => exact (updateThermo_cached m T { s with temperature := T } h).1
  | setDensity ρ => exact h
  | setPressure p => exact h
  | setMassFractions y => exact h
  | setMoleFractions x => exact h
  | getMoleFractions => exact h
  | getEnthalpies => exact (updateThermo_cached m _ s h).1
  | advance run => exact stages_cached m run.stages (s.updateMoles m) h

theorem runCalls_cached (m : Mechanism S K) (s : ReactorState S K) (cs : List (ReactorCall S K))
    (h : Cached m s) : Cached m (runCalls m s cs) := by
  induction cs generalizing s with
  | nil => exact h
  | cons c cs ih => exact ih _ (apply_cached m s c h)

theorem runCalls_fresh (m : Mechanism S K) (cs : List (ReactorCall S K)) (s : ReactorState S K)
    (b : Bool) (h : Cached m s) (hb : b = true → s.thermoTemp = s.temperature)
    (hf : tablesFresh cs b = true) :
    (runCalls m s cs).thermoTemp = (runCalls m s cs).temperature := by
  induction cs generalizing s b with
  | nil => exact hb hf
  | cons c cs ih =>
    cases c with
    | setTemperature T =>
      have hu := updateThermo_cached m T { s with temperature := T } h
      exact ih _ true hu.1 (fun _ => hu.2.1.trans hu.2.2.symm) hf
    | setDensity ρ => exact ih _ b h hb hf
    | setPressure p => exact ih _ b h hb hf
    | setMassFractions y => exact ih _ b h hb hf
    | setMoleFractions x => exact ih _ b h hb hf
    | getMoleFractions => exact ih _ b h hb hf
    | getEnthalpies =>
      have hu := updateThermo_cached m s.temperature s h
      exact ih _ true hu.1 (fun _ => hu.2.1.trans hu.2.2.symm) hf
    | advance run =>
      exact ih _ false (apply_cached m s (.advance run) h) (fun h => by cases h) hf

end

section
variable {S K : Type*} [Fintype S] [DecidableEq S] [Field K] [LinearOrder K] [IsStrictOrderedRing K]

theorem fresh_cached (m : Mechanism S K) (first : S) :
    Cached m (freshReactor m first) ∧
      (freshReactor m first).thermoTemp = (freshReactor m first).temperature := by
  have h300 : ¬ ((0 : K) = 300) := by norm_num
  unfold freshReactor
  dsimp only
  simp [ReactorState.setTemperature, ReactorState.updateThermo, ReactorState.updateMoles,
    ReactorState.setPressure, ReactorState.setDensity, h300, Cached]

/-- **C121** After every history of calls on a new reactor in which the temperature was set, or the
species enthalpies were read, after the last `Advance`, the mixture enthalpy, heat capacity and
internal energy which the reactor reports are those of its current composition and temperature. -/
theorem reactor_thermo_consistent_partial (m : Mechanism S K) (first : S)
    (cs : List (ReactorCall S K)) (hf : tablesFresh cs true = true) :
    let s := runCalls m (freshReactor m first) cs
    s.enthalpy = ∑ i, (m.thermo s.temperature).1 i * s.massFractions i ∧
    s.cp = ∑ i, (m.thermo s.temperature).2 i * s.massFractions i ∧
    s.internalEnergy m = ∑ i, s.massFractions i *
      ((m.thermo s.temperature).1 i - m.gasConstant / m.molarMass i * s.temperature) := by
  intro s
  have hc := runCalls_cached m _ cs (fresh_cached m first).1
  have ht := runCalls_fresh m cs _ true (fresh_cached m first).1
    (fun _ => (fresh_cached m first).2) hf
  change Cached m s at hc
  change s.thermoTemp = s.temperature at ht
  clear_value s
  obtain ⟨h1, h2⟩ := hc
  rw [ht] at h1 h2
  refine ⟨?_, ?_, ?_⟩
  · rw [← h1]
    rfl
  · rw [← h2]
    rfl
  · rw [← h1]
    unfold ReactorState.internalEnergy ReactorState.enthalpy ReactorState.meanY
    rw [Finset.mul_sum, Finset.sum_mul, ← Finset.sum_sub_distrib]
    exact Finset.sum_congr rfl fun i _ => by ring

/-- **C121** Right after `Advance` the reported enthalpy and heat capacity are those of the last
temperature at which the ODE solver evaluated the right-hand side, not of the temperature it
returned. -/
theorem reactor_after_advance (m : Mechanism S K) (first : S) (cs : List (ReactorCall S K))
    (l : List K) (Tl T : K) (c : S → K) :
    let s := runCalls m (freshReactor m first) (cs ++ [.advance ⟨l ++ [Tl], T, c⟩])
    s.temperature = T ∧
    s.enthalpy = ∑ i, (m.thermo Tl).1 i * s.massFractions i ∧
    s.cp = ∑ i, (m.thermo Tl).2 i * s.massFractions i := by
  intro s
  have hs : s = (runCalls m (freshReactor m first) cs).advance m ⟨l ++ [Tl], T, c⟩ := by
    show List.foldl _ _ _ = _
    rw [List.foldl_append]
    rfl
  have hc0 := runCalls_cached m _ cs (fresh_cached m first).1
  generalize runCalls m (freshReactor m first) cs = s0 at hs hc0
  have hc : Cached m s := by
    rw [hs]
    exact stages_cached m _ (s0.updateMoles m) hc0
  have ht : s.thermoTemp = Tl := by
    rw [hs]
    exact stages_thermoTemp m l Tl (s0.updateMoles m) hc0
  have hT : s.temperature = T := by
    rw [hs]
    rfl
  clear_value s
  refine ⟨hT, ?_, ?_⟩
  · rw [← ht, ← hc.1]
    rfl
  · rw [← ht, ← hc.2]
    rfl

end

/-- A gas of one species with constant heat capacity, for the witnesses. -/
def oneGas : Mechanism Unit ℚ :=
  { molarMass := fun _ => 2, thermo := fun T => (fun _ => 10 * T, fun _ => 10)
    production := fun c _ _ _ => c (), gasConstant := 8 }

/-- **C121** The full statement (without the condition on the last `Advance`) is false: a reactor
which advances from 300 K to 320 K and whose solver evaluated the right-hand side last at 319 K
reports the enthalpy of 319 K. -/
theorem reactor_stale_after_advance :
    let s := runCalls oneGas (freshReactor oneGas ())
      [.setDensity 2, .advance ⟨[300, 310, 319], 320, fun _ => 1⟩]
    s.temperature = 320 ∧ s.massFractions () = 1 ∧ s.enthalpy = 3190 ∧
      (oneGas.thermo s.temperature).1 () = 3200 := by
  decide +kernel

/-- Non-vacuity of `reactor_thermo_consistent_partial`: setting the temperature again repairs it. -/
example : tablesFresh (S := Unit) (K := ℚ)
      [.setDensity 2, .advance ⟨[300, 310, 319], 320, fun _ => 1⟩, .setTemperature 320] true = true ∧
    (runCalls oneGas (freshReactor oneGas ())
      [.setDensity 2, .advance ⟨[300, 310, 319], 320, fun _ => 1⟩,
        .setTemperature 320]).enthalpy = 3200 := by
  decide +kernel

/-! ## Composition -/

section
variable {S K : Type*} [Fintype S] [Field K] [LinearOrder K] [IsStrictOrderedRing K]

theorem clipped_sum_pos (y : S → K) (h : ∃ i, 0 < y i) : 0 < ∑ i, max 0 (y i) := by
  obtain ⟨j, hj⟩ := h
  exact Finset.sum_pos' (fun i _ => le_max_left _ _)
    ⟨j, Finset.mem_univ j, lt_max_of_lt_right hj⟩

/-- **C122** `SetMassFractions` accepts any vector with a positive entry, also partial densities,
and stores the clipped vector divided by its sum: non-negative numbers which sum to one, in the
proportions of the non-negative entries. Density, temperature and tables are unchanged and the
concentrations are those of the new composition. -/
theorem set_mass_fractions_spec (m : Mechanism S K) (s : ReactorState S K) (y : S → K)
    (h : ∃ i, 0 < y i) :
    let s' := s.setMassFractions m y
    (∀ i, 0 ≤ s'.massFractions i) ∧ ∑ i, s'.massFractions i = 1 ∧
    (∀ i, s'.massFractions i * ∑ j, max 0 (y j) = max 0 (y i)) ∧
    (∀ i, s'.moles i = s'.massFractions i * s.density / m.molarMass i) ∧
    s'.density = s.density ∧ s'.temperature = s.temperature := by
  have hpos := clipped_sum_pos y h
  have hne := ne_of_gt hpos
  have e : ∀ i, (s.setMassFractions m y).massFractions i = max 0 (y i) / ∑ j, max 0 (y j) := by
    intro i
    show (if (∑ j, max 0 (y j)) ≠ 0 then (fun i => max 0 (y i) / ∑ j, max 0 (y j))
      else fun i => max 0 (y i)) i = _
    rw [if_pos hne]
  refine ⟨fun i => ?_, ?_, fun i => ?_, fun i => rfl, rfl, rfl⟩
  · rw [e]
    exact div_nonneg (le_max_left _ _) hpos.le
  · simp only [e]
    rw [← Finset.sum_div, div_self hne]
  · rw [e, div_mul_cancel₀ _ hne]

/-- **C122** Partial densities of a mixture give its mass fractions. -/
theorem set_mass_fractions_densities (m : Mechanism S K) (s : ReactorState S K) (ρ : K)
    (Y : S → K) (hρ : 0 < ρ) (hY : ∀ i, 0 ≤ Y i) (h1 : ∑ i, Y i = 1) :
    (s.setMassFractions m (fun i => ρ * Y i)).massFractions = Y := by
  have hp : ∃ i, 0 < ρ * Y i := by
    by_contra hcon
    push Not at hcon
    have : ∑ i, Y i = 0 := Finset.sum_eq_zero fun i _ => by
      have h2 := hcon i
      have h3 := hY i
      have h4 : ρ * Y i = 0 := le_antisymm h2 (mul_nonneg hρ.le h3)
      rcases mul_eq_zero.mp h4 with h5 | h5
      · exact absurd h5 (ne_of_gt hρ)
      · exact h5
    rw [h1] at this
    exact one_ne_zero this
  have h := (set_mass_fractions_spec m s _ hp).2.2.1
  have hm : ∀ i, max 0 (ρ * Y i) = ρ * Y i := fun i => max_eq_right (mul_nonneg hρ.le (hY i))
  funext i
  have hi := h i
  simp only [hm] at hi
  rw [← Finset.mul_sum, h1, mul_one, mul_comm] at hi
  exact mul_left_cancel₀ (ne_of_gt hρ) hi

/-- **C122** A vector without a positive entry is accepted silently and leaves a reactor without
any gas: all mass fractions are zero. -/
theorem set_mass_fractions_empty (m : Mechanism S K) (s : ReactorState S K) (y : S → K)
    (h : ∀ i, y i ≤ 0) : (s.setMassFractions m y).massFractions = fun _ => 0 := by
  have hm : ∀ i, max 0 (y i) = 0 := fun i => max_eq_left (h i)
  have hs : ∑ j, max 0 (y j) = 0 := Finset.sum_eq_zero fun i _ => hm i
  funext i
  show (if (∑ j, max 0 (y j)) ≠ 0 then (fun i => max 0 (y i) / ∑ j, max 0 (y j))
      else fun i => max 0 (y i)) i = _
  rw [if_neg (not_not.mpr hs)]
  exact hm i

/-- **C122** The three versions of `SetMassFractions` agree on non-negative vectors. -/
theorem mass_fraction_lanes [DecidableEq S] (m : Mechanism S K) (s : ReactorState S K) (y : S → K)
    (first : S) (hy : ∀ i, 0 ≤ y i) :
    massFractionsLane y = (s.setMassFractions m y).massFractions ∧
    massFractionsLaneMasked first true y = (s.setMassFractions m y).massFractions := by
  have hm : ∀ i, max 0 (y i) = y i := fun i => max_eq_right (hy i)
  have ha : ∀ i, |y i| = y i := fun i => abs_of_nonneg (hy i)
  have hs : 0 ≤ ∑ i, y i := Finset.sum_nonneg fun i _ => hy i
  have e : (s.setMassFractions m y).massFractions =
      fun i => y i / (if ∑ i, y i > 0 then ∑ i, y i else 1) := by
    funext i
    show (if (∑ j, max 0 (y j)) ≠ 0 then (fun i => max 0 (y i) / ∑ j, max 0 (y j))
      else fun i => max 0 (y i)) i = _
    simp only [hm]
    by_cases h0 : ∑ i, y i = 0
    · rw [if_neg (not_not.mpr h0), if_neg (by rw [h0]; exact lt_irrefl _), div_one]
    · rw [if_pos h0, if_pos (lt_of_le_of_ne hs (Ne.symm h0))]
  constructor
  · rw [e]
    simp only [massFractionsLane, ha]
  · rw [e]
    simp only [massFractionsLaneMasked, if_true, hm]

end

/-- **C122** They disagree on a vector with a small negative entry, as rounding produces them: the
scalar version clips, the array version takes the absolute value. -/
theorem mass_fraction_lanes_negative :
    let y : Bool → ℚ := fun b => if b then 11 / 10 else -1 / 10
    let m : Mechanism Bool ℚ := ⟨fun _ => 1, fun _ => (fun _ => 0, fun _ => 0), fun c _ _ => c, 8⟩
    ((freshReactor m true).setMassFractions m y).massFractions true = 1 ∧
    massFractionsLaneMasked true true y true = 1 ∧ massFractionsLane y true = 11 / 12 := by
  decide +kernel

section
variable {S K : Type*} [Fintype S] [Field K] [LinearOrder K] [IsStrictOrderedRing K]

/-- **C122** `SetMoleFractions` stores the mass fractions of the mixture with the given mole
fractions: `Y i = x i * M i / ∑ x j * M j`. They are non-negative, sum to one, and the mole
fractions of the stored mixture are the given ones. -/
theorem set_mole_fractions_spec (m : Mechanism S K) (s : ReactorState S K) (x : S → K)
    (hM : ∀ i, 0 < m.molarMass i) (hx : ∀ i, 0 ≤ x i) (h1 : ∑ i, x i = 1) :
    let s' := s.setMoleFractions m x
    (∀ i, s'.massFractions i = x i * m.molarMass i / ∑ j, x j * m.molarMass j) ∧
    (∀ i, 0 ≤ s'.massFractions i) ∧ ∑ i, s'.massFractions i = 1 ∧
    (∀ i, s'.massFractions i / m.molarMass i * s'.meanMolarMass m = x i) ∧
    s'.meanMolarMass m = ∑ i, x i * m.molarMass i := by
  have hy : (s.setMassFractions m x).massFractions = x := by
    have := set_mass_fractions_densities m s 1 x one_pos hx h1
    simpa using this
  have htot : 0 < ∑ j, x j * m.molarMass j := by
    have : ∃ j, x j ≠ 0 := by
      by_contra hcon
      push Not at hcon
      rw [Finset.sum_eq_zero fun i _ => hcon i] at h1
      exact zero_ne_one h1
    obtain ⟨j, hj⟩ := this
    exact Finset.sum_pos' (fun i _ => mul_nonneg (hx i) (hM i).le)
      ⟨j, Finset.mem_univ j, mul_pos (lt_of_le_of_ne (hx j) (Ne.symm hj)) (hM j)⟩
  have e : ∀ i, (s.setMoleFractions m x).massFractions i =
      x i * m.molarMass i / ∑ j, x j * m.molarMass j := by
    intro i
    show (s.setMassFractions m x).massFractions i * (m.molarMass i /
      ∑ j, (s.setMassFractions m x).massFractions j * m.molarMass j) = _
    rw [hy]
    ring
  have hmean : (s.setMoleFractions m x).meanMolarMass m = ∑ i, x i * m.molarMass i := by
    unfold ReactorState.meanMolarMass
    have : ∑ i, (s.setMoleFractions m x).massFractions i / m.molarMass i =
        1 / ∑ j, x j * m.molarMass j := by
      simp only [e]
      calc ∑ i, x i * m.molarMass i / (∑ j, x j * m.molarMass j) / m.molarMass i
          = ∑ i, x i / ∑ j, x j * m.molarMass j := Finset.sum_congr rfl fun i _ => by
            have := ne_of_gt (hM i)
            field_simp
        _ = 1 / ∑ j, x j * m.molarMass j := by rw [← Finset.sum_div, h1]
    rw [this, one_div_one_div]
  refine ⟨e, fun i => ?_, ?_, fun i => ?_, hmean⟩
  · rw [e]
    exact div_nonneg (mul_nonneg (hx i) (hM i).le) htot.le
  · simp only [e]
    rw [← Finset.sum_div, div_self (ne_of_gt htot)]
  · rw [hmean, e]
    have h2 := ne_of_gt (hM i)
    have h3 := ne_of_gt htot
    field_simp

/-- Non-vacuity: one mole of hydrogen and one half of oxygen. -/
example : (∀ b, 0 ≤ (fun b : Bool => if b then (2 / 3 : ℚ) else 1 / 3) b) ∧
    ∑ b : Bool, (fun b : Bool => if b then (2 / 3 : ℚ) else 1 / 3) b = 1 := by
  decide +kernel

/-- **C123** Setting the pressure is read back, and does not change temperature or composition. -/
theorem set_pressure_round_trip (m : Mechanism S K) (s : ReactorState S K) (p : K)
    (hT : s.temperature ≠ 0) (hR : m.gasConstant ≠ 0)
    (hY : ∑ i, s.massFractions i / m.molarMass i ≠ 0) :
    (s.setPressure m p).pressure m = p ∧ (s.setPressure m p).temperature = s.temperature ∧
      (s.setPressure m p).massFractions = s.massFractions := by
  refine ⟨?_, rfl, rfl⟩
  show p * s.meanMolarMass m / s.temperature / m.gasConstant * m.gasConstant /
    s.meanMolarMass m * s.temperature = p
  have hm : s.meanMolarMass m ≠ 0 := one_div_ne_zero hY
  field_simp

/-- **C123** `GetMoleFractions` returns concentrations: they are proportional to the mole fractions
`X i = Y i / M i / ∑ Y j / M j`, but their sum is `density / mean molar mass`, not one. -/
theorem get_mole_fractions_partial (m : Mechanism S K) (s : ReactorState S K)
    (hY : ∑ i, s.massFractions i / m.molarMass i ≠ 0) :
    let c := (s.getMoleFractions m).2
    (∑ i, c i = s.density / s.meanMolarMass m) ∧
    ∀ i, c i = s.density / s.meanMolarMass m *
      (s.massFractions i / m.molarMass i / ∑ j, s.massFractions j / m.molarMass j) := by
  intro c
  have hc : ∀ i, c i = s.massFractions i * s.density / m.molarMass i := fun i => rfl
  clear_value c
  have hmean : s.density / s.meanMolarMass m =
      s.density * ∑ i, s.massFractions i / m.molarMass i := by
    unfold ReactorState.meanMolarMass
    rw [one_div, div_inv_eq_mul]
  rw [hmean]
  constructor
  · rw [Finset.mul_sum]
    exact Finset.sum_congr rfl fun i _ => by rw [hc]; ring
  · intro i
    rw [hc]
    field_simp

/-- The concentrations belonging to composition and density. -/
def ReactorState.consistent (m : Mechanism S K) (s : ReactorState S K) : Prop :=
  ∀ i, s.moles i = s.massFractions i * s.density / m.molarMass i

/-- **C123** `GetProductionRates` uses the concentrations stored by the last call which wrote the
composition. They belong to the current density when that call came after the last change of the
density: right after setting mass or mole fractions the rates are those of the current state. -/
theorem production_rates_partial (m : Mechanism S K) (s : ReactorState S K) (y : S → K) :
    ((s.setMassFractions m y).consistent m ∧ (s.setMoleFractions m y).consistent m ∧
      ((s.getMoleFractions m).1).consistent m) ∧
    ∀ s' : ReactorState S K, s'.consistent m → s'.productionRates m =
      m.production (fun i => s'.massFractions i * s'.density / m.molarMass i) s'.temperature
        (s'.pressure m) := by
  refine ⟨⟨fun i => rfl, fun i => rfl, fun i => rfl⟩, fun s' h => ?_⟩
  unfold ReactorState.productionRates
  rw [funext h]

end

/-- **C123** The full statement is false: a new reactor at 300 K and 101325 Pa reports the
production rates of a vacuum, because its concentrations were computed before its density was
known; and setting the density afterwards does not change them. -/
theorem production_rates_stale :
    (freshReactor oneGas ()).productionRates oneGas () = 0 ∧
    (freshReactor oneGas ()).pressure oneGas = 101325 ∧
    (oneGas.production (fun i => (freshReactor oneGas ()).massFractions i *
      (freshReactor oneGas ()).density / oneGas.molarMass i) 300 101325 ()) ≠ 0 ∧
    ((((freshReactor oneGas ()).setDensity 2).setMassFractions oneGas (fun _ => 1)).setDensity
      4).productionRates oneGas () = 1 := by
  decide +kernel

/-- **C123** `AdvanceAndFindMaxdT` does not find the time of the steepest temperature rise: it
never updates the old temperature, so the second of the steps `300 -> 1300 -> 1301`, which rises by
one kelvin, is taken for a rise by 1001 kelvin. -/
theorem max_dT_wrong :
    advanceAndFindMaxdT (300 : ℚ) [(1, 1300), (2, 1301)] = 2 := by
  decide +kernel

/-! ## The right-hand side of the reactor equations -/

section
variable {S K : Type*} [Fintype S] [Field K]

/-- **C124** The temperature derivative keeps the internal energy per volume constant: at every
state whose density is that of its concentrations and whose heat capacity at constant volume does
not vanish, the rate of change of `∑ c i * M i * u i(T)` is zero. -/
theorem ode_rhs_energy (m : Mechanism S K) (ρ T : K) (c : S → K)
    (hM : ∀ i, m.molarMass i ≠ 0) (hρ : ρ ≠ 0) (hmass : ∑ i, c i * m.molarMass i = ρ)
    (hc : ∑ i, c i ≠ 0)
    (hcv : ∑ i, c i * m.molarMass i * ((m.thermo T).2 i - m.gasConstant / m.molarMass i) ≠ 0) :
    ∑ i, (odeRhs m ρ T c).2 i * m.molarMass i *
        ((m.thermo T).1 i - m.gasConstant / m.molarMass i * T) +
      (∑ i, c i * m.molarMass i * ((m.thermo T).2 i - m.gasConstant / m.molarMass i)) *
        (odeRhs m ρ T c).1 = 0 := by
  have h1 : ρ * (m.gasConstant / (∑ i, c i * m.molarMass i / ∑ i, c i) -
      ∑ i, (m.thermo T).2 i * c i * m.molarMass i / ρ) =
      -∑ i, c i * m.molarMass i * ((m.thermo T).2 i - m.gasConstant / m.molarMass i) := by
    have e1 : ∑ i, c i * m.molarMass i / ∑ i, c i = ρ / ∑ i, c i := by
      rw [← Finset.sum_div, hmass]
    have e2 : ∑ i, (m.thermo T).2 i * c i * m.molarMass i / ρ =
        (∑ i, (m.thermo T).2 i * c i * m.molarMass i) / ρ := by
      rw [← Finset.sum_div]
    have e3 : ∑ i, c i * m.molarMass i * ((m.thermo T).2 i - m.gasConstant / m.molarMass i) =
        (∑ i, (m.thermo T).2 i * c i * m.molarMass i) - m.gasConstant * ∑ i, c i := by
      rw [Finset.mul_sum, ← Finset.sum_sub_distrib]
      refine Finset.sum_congr rfl fun i _ => ?_
      have := hM i
      field_simp
    rw [e1, e2, e3]
    field_simp
    ring
  have h2 : (odeRhs m ρ T c).1 = (∑ i, ((m.thermo T).1 i - m.gasConstant / m.molarMass i * T) *
      ((odeRhs m ρ T c).2 i * m.molarMass i)) / (ρ * (m.gasConstant /
        (∑ i, c i * m.molarMass i / ∑ i, c i) -
      ∑ i, (m.thermo T).2 i * c i * m.molarMass i / ρ)) := rfl
  rw [h2, h1]
  have h3 : ∑ i, ((m.thermo T).1 i - m.gasConstant / m.molarMass i * T) *
      ((odeRhs m ρ T c).2 i * m.molarMass i) = ∑ i, (odeRhs m ρ T c).2 i * m.molarMass i *
        ((m.thermo T).1 i - m.gasConstant / m.molarMass i * T) :=
    Finset.sum_congr rfl fun i _ => by ring
  rw [h3]
  generalize ∑ i, (odeRhs m ρ T c).2 i * m.molarMass i *
        ((m.thermo T).1 i - m.gasConstant / m.molarMass i * T) = A
  generalize ∑ i, c i * m.molarMass i * ((m.thermo T).2 i - m.gasConstant / m.molarMass i) = B
    at hcv
  field_simp
  ring

end

section
variable {S : Type*} [Fintype S]

/-- Internal energy per volume. -/
noncomputable def volumeEnergy (m : Mechanism S ℝ) (T : ℝ) (c : S → ℝ) : ℝ :=
  ∑ i, c i * m.molarMass i * ((m.thermo T).1 i - m.gasConstant / m.molarMass i * T)

/-- **C124** Along every solution of the reactor equations the density and the internal energy per
volume are constant, for a mechanism which conserves mass and whose heat capacities are the
derivatives of its enthalpies. -/
theorem ode_solution_conserves (m : Mechanism S ℝ) (ρ : ℝ) (T : ℝ → ℝ) (c : ℝ → S → ℝ)
    (hM : ∀ i, m.molarMass i ≠ 0) (hρ : ρ ≠ 0)
    (hprod : ∀ c T p, ∑ i, m.molarMass i * m.production c T p i = 0)
    (hth : ∀ t i, HasDerivAt (fun x => (m.thermo x).1 i) ((m.thermo (T t)).2 i) (T t))
    (hT : ∀ t, HasDerivAt T (odeRhs m ρ (T t) (c t)).1 t)
    (hc : ∀ t i, HasDerivAt (fun t => c t i) ((odeRhs m ρ (T t) (c t)).2 i) t)
    (h0 : ∑ i, c 0 i * m.molarMass i = ρ) (hsum : ∀ t, ∑ i, c t i ≠ 0)
    (hcv : ∀ t, ∑ i, c t i * m.molarMass i *
      ((m.thermo (T t)).2 i - m.gasConstant / m.molarMass i) ≠ 0) (t : ℝ) :
    ∑ i, c t i * m.molarMass i = ρ ∧ volumeEnergy m (T t) (c t) = volumeEnergy m (T 0) (c 0) := by
  have hmass : ∀ t, ∑ i, c t i * m.molarMass i = ρ := by
    have hd : ∀ t, HasDerivAt (fun t => ∑ i, c t i * m.molarMass i) 0 t := by
      intro t
      have h1 : HasDerivAt (fun t => ∑ i, c t i * m.molarMass i)
          (∑ i, (odeRhs m ρ (T t) (c t)).2 i * m.molarMass i) t :=
        HasDerivAt.fun_sum fun i _ => (hc t i).mul_const _
      refine h1.congr_deriv ?_
      rw [← hprod (c t) (T t) ((∑ i, c t i) * m.gasConstant * T t)]
      exact Finset.sum_congr rfl fun i _ => mul_comm _ _
    intro t
    have := is_const_of_deriv_eq_zero (fun x => (hd x).differentiableAt) (fun x => (hd x).deriv) t 0
    rw [← h0]
    exact this
  refine ⟨hmass t, ?_⟩
  have hd : ∀ t, HasDerivAt (fun t => volumeEnergy m (T t) (c t)) 0 t := by
    intro t
    have hu : ∀ i, HasDerivAt (fun t => (m.thermo (T t)).1 i - m.gasConstant / m.molarMass i * T t)
        ((m.thermo (T t)).2 i * (odeRhs m ρ (T t) (c t)).1 -
          m.gasConstant / m.molarMass i * (odeRhs m ρ (T t) (c t)).1) t := fun i =>
      (HasDerivAt.comp t (hth t i) (hT t)).sub ((hT t).const_mul _)
    have h1 : HasDerivAt (fun t => volumeEnergy m (T t) (c t))
        (∑ i, ((odeRhs m ρ (T t) (c t)).2 i * m.molarMass i *
          ((m.thermo (T t)).1 i - m.gasConstant / m.molarMass i * T t) +
          c t i * m.molarMass i * ((m.thermo (T t)).2 i * (odeRhs m ρ (T t) (c t)).1 -
            m.gasConstant / m.molarMass i * (odeRhs m ρ (T t) (c t)).1))) t :=
      HasDerivAt.fun_sum fun i _ => ((hc t i).mul_const (m.molarMass i)).mul (hu i)
    refine h1.congr_deriv ?_
    rw [← ode_rhs_energy m ρ (T t) (c t) hM hρ (hmass t) (hsum t) (hcv t), Finset.sum_add_distrib,
      Finset.sum_mul]
    congr 1
    exact Finset.sum_congr rfl fun i _ => by ring
  exact is_const_of_deriv_eq_zero (fun x => (hd x).differentiableAt) (fun x => (hd x).deriv) t 0

end

/-- The mechanism of Burke et al. as the reactor sees it. -/
noncomputable def burkeReactor : Mechanism BSp ℝ :=
  { molarMass := burkeMolarMass, thermo := burkeThermo
    production := burkeProduction, gasConstant := 8314.462175 }

/-- **C124** Along every solution of the reactor equations with the mechanism of Burke et al. the
mass and the number of atoms of each element in the volume are constant. -/
theorem burke_solution_conserves (ρ : ℝ) (T : ℝ → ℝ) (c : ℝ → BSp → ℝ)
    (hc : ∀ t i, HasDerivAt (fun t => c t i) ((odeRhs burkeReactor ρ (T t) (c t)).2 i) t) (t : ℝ) :
    ∑ i, c t i * burkeMolarMass i = ∑ i, c 0 i * burkeMolarMass i ∧
    ∀ e, ∑ i, (atoms i e : ℝ) * c t i = ∑ i, (atoms i e : ℝ) * c 0 i := by
  have key : ∀ a : BSp → ℝ, (∀ w : BRx → ℝ, ∑ i, a i * burkeCdot w i = 0) →
      ∑ i, a i * c t i = ∑ i, a i * c 0 i := by
    intro a ha
    have hd : ∀ t, HasDerivAt (fun t => ∑ i, a i * c t i) 0 t := by
      intro t
      have h1 : HasDerivAt (fun t => ∑ i, a i * c t i)
          (∑ i, a i * (odeRhs burkeReactor ρ (T t) (c t)).2 i) t :=
        HasDerivAt.fun_sum fun i _ => (hc t i).const_mul _
      exact h1.congr_deriv (ha _)
    exact is_const_of_deriv_eq_zero (fun x => (hd x).differentiableAt) (fun x => (hd x).deriv) t 0
  refine ⟨?_, fun e => key _ (fun w => burke_atoms_conserved w e)⟩
  have := key burkeMolarMass burke_mass_conserved
  simpa only [mul_comm] using this

/-- Two species of the same molar mass; the first decays into the second and releases heat. -/
def decayGas : Mechanism Bool ℝ :=
  { molarMass := fun _ => 1
    thermo := fun T => (fun b => if b then 7 * T + 5 else 7 * T, fun _ => 7)
    production := fun c _ _ b => if b then -c true else c true
    gasConstant := 2 }

/-- Non-vacuity of `ode_solution_conserves`: an explicit solution, whose temperature rises from
300 K by the heat of the reaction. -/
example (t : ℝ) : volumeEnergy decayGas (301 - Real.exp (-t))
      (fun b => if b then Real.exp (-t) else 1 - Real.exp (-t)) =
    volumeEnergy decayGas (301 - Real.exp (-0)) (fun b => if b then Real.exp (-0) else
      1 - Real.exp (-0)) := by
  have he : ∀ t : ℝ, HasDerivAt (fun t : ℝ => Real.exp (-t)) (-Real.exp (-t)) t := fun t => by
    have := (hasDerivAt_neg t).exp
    simpa using this
  refine (ode_solution_conserves decayGas 1 (fun t => 301 - Real.exp (-t))
    (fun t b => if b then Real.exp (-t) else 1 - Real.exp (-t)) (fun i => one_ne_zero) one_ne_zero
    ?_ ?_ ?_ ?_ ?_ ?_ ?_ t).2
  · intro c T p
    simp [decayGas]
  · intro t i
    have h7 : HasDerivAt (fun x : ℝ => 7 * x) 7 (301 - Real.exp (-t)) := by
      simpa using (hasDerivAt_id (301 - Real.exp (-t))).const_mul (7 : ℝ)
    cases i
    · simpa [decayGas] using h7
    · simpa [decayGas] using h7.add_const 5
  · intro t
    have h1 := (he t).const_sub 301
    refine h1.congr_deriv ?_
    simp [odeRhs, decayGas]
    ring
  · intro t i
    cases i
    · have h1 := (he t).const_sub 1
      simpa [odeRhs, decayGas] using h1
    · simpa [odeRhs, decayGas] using he t
  · simp [decayGas]
  · intro t
    simp
  · intro t
    simp [decayGas]
    norm_num
    intro h
    linarith

end Fub
