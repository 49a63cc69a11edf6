import Verif.Lemmas.BurkeThermo

/-!
# Properties of the thermodynamic tables of `Burke2012`
-/

namespace Fub

section
variable {K : Type*} [Field K] [LinearOrder K] [IsStrictOrderedRing K]

/-- **C120** At every temperature up to 5000 K (there is no lower limit) the molar heat capacity at
constant pressure of each species exceeds 2.4 times the gas constant. -/
theorem burke_heat_capacity_bound (T : K) (hT : T ≤ 5000) (i : BSp) :
    2.4 * 8314.462175 ≤ (burkeThermo T).2 i * burkeMolarMass i := by
  unfold burkeThermo
  split_ifs with h1 h2
  · exact burkeCpHigh_bound T (le_of_lt h1) hT i
  · exact burkeCpLow_bound T h2 (not_lt.mp h1) i
  · exact burkeCpLow_bound 300 (by norm_num) (by norm_num) i

theorem burkeMolarMass_pos (i : BSp) : 0 < (burkeMolarMass i : K) := by
  cases i <;> norm_num [burkeMolarMass]

/-- **C120** For every mixture (non-negative mass fractions which are not all zero) and every
temperature up to 5000 K the heat capacity at constant volume is positive and the ratio of the heat
capacities satisfies `1 < gamma ≤ 2`: the assertion in `ComputeSpeedOfSound` holds. -/
theorem burke_gamma_range (Y : BSp → K) (hY : ∀ i, 0 ≤ Y i) (hne : ∃ i, Y i ≠ 0) (T : K)
    (hT : T ≤ 5000) :
    let cp := ∑ i, (burkeThermo T).2 i * Y i
    let cv := cp - 8314.462175 * ∑ i, Y i / burkeMolarMass i
    0 < cv ∧ 1 < cp / cv ∧ cp / cv ≤ 2 := by
  intro cp cv
  have hm : 0 < ∑ i, Y i / (burkeMolarMass i : K) := by
    obtain ⟨j, hj⟩ := hne
    refine Finset.sum_pos' (fun i _ => div_nonneg (hY i) (burkeMolarMass_pos i).le)
      ⟨j, Finset.mem_univ j, div_pos (lt_of_le_of_ne (hY j) (Ne.symm hj)) (burkeMolarMass_pos j)⟩
  have hcp : 2.4 * 8314.462175 * ∑ i, Y i / (burkeMolarMass i : K) ≤ cp := by
    rw [Finset.mul_sum]
    apply Finset.sum_le_sum
    intro i _
    have hM : 0 < (burkeMolarMass i : K) := burkeMolarMass_pos i
    have hb := burke_heat_capacity_bound T hT i
    have hq : 0 ≤ Y i / burkeMolarMass i := div_nonneg (hY i) hM.le
    calc 2.4 * 8314.462175 * (Y i / burkeMolarMass i)
        ≤ ((burkeThermo T).2 i * burkeMolarMass i) * (Y i / burkeMolarMass i) :=
          mul_le_mul_of_nonneg_right hb hq
      _ = (burkeThermo T).2 i * Y i := by field_simp
  have hcvdef : cv = cp - 8314.462175 * ∑ i, Y i / burkeMolarMass i := rfl
  clear_value cp cv
  generalize (∑ i, Y i / (burkeMolarMass i : K)) = m at *
  have hRm : 0 < (8314.462175 : K) * m := mul_pos (by norm_num) hm
  have hcv : 0 < cv := by
    rw [hcvdef]
    nlinarith
  refine ⟨hcv, ?_, ?_⟩
  · rw [lt_div_iff₀ hcv]
    linarith
  · rw [div_le_iff₀ hcv]
    nlinarith

/-- Non-vacuity of `burke_gamma_range`: a mixture of hydrogen and oxygen at 2500 K. -/
example : (∀ i, 0 ≤ (fun i => if i = .H2 ∨ i = .O2 then (1 / 2 : ℚ) else 0 : BSp → ℚ) i) ∧
    (∃ i, (fun i => if i = .H2 ∨ i = .O2 then (1 / 2 : ℚ) else 0 : BSp → ℚ) i ≠ 0) ∧
    (2500 : ℚ) ≤ 5000 := by
  refine ⟨fun i => ?_, ⟨.H2, by norm_num⟩, by norm_num⟩
  dsimp only
  split_ifs <;> norm_num

/-- **C120** The array version of the tables agrees with the scalar version at every temperature
outside the window `[299.999999, 300)`. -/
theorem burke_thermo_lane_partial (T : K) (h : T < 299.999999 ∨ 300 ≤ T) :
    burkeThermoLane T = burkeThermo T := by
  have e1 : (burkeHLowArr : K → BSp → K) = burkeHLow := by
    funext t i; cases i <;> rfl
  have e2 : (burkeHHighArr : K → BSp → K) = burkeHHigh := by
    funext t i; cases i <;> rfl
  have e3 : (burkeCpLowArr : K → BSp → K) = burkeCpLow := by
    funext t i; cases i <;> rfl
  have e4 : (burkeCpHighArr : K → BSp → K) = burkeCpHigh := by
    funext t i; cases i <;> rfl
  unfold burkeThermoLane burkeThermo
  simp only [e1, e2, e3, e4]
  rcases h with h | h
  · have h1 : ¬ T > 1000 := by
      have : (299.999999 : K) < 1000 := by norm_num
      exact not_lt.mpr (h.le.trans this.le)
    have h2 : ¬ T ≥ 299.999999 := not_le.mpr h
    have h3 : max T 300 = 300 := max_eq_right (h.le.trans (by norm_num))
    simp only [h1, h2, h3, if_false, not_false_eq_true, if_true]
  · have h2 : T ≥ 299.999999 := le_trans (by norm_num) h
    have h3 : max T 300 = T := max_eq_left h
    by_cases h1 : T > 1000
    · simp only [h1, h2, h3, if_true, not_true_eq_false, if_false]
    · simp only [h1, h2, h3, if_true, not_true_eq_false, if_false]

end

/-- **C120** In that window the two versions differ: at 299.9999995 K the array version returns the
enthalpy of argon at 300 K. -/
theorem burke_thermo_lane_window :
    (burkeThermoLane (299.9999995 : ℚ)).1 .AR = (burkeThermo (300 : ℚ)).1 .AR ∧
    (burkeThermoLane (299.9999995 : ℚ)).1 .AR ≠ (burkeThermo (299.9999995 : ℚ)).1 .AR := by
  constructor <;> norm_num [burkeThermoLane, burkeThermo, burkeHLowArr, burkeHLow]

/-- **C120** Away from the two seams the heat capacity is the derivative of the enthalpy up to the
rounding of the printed coefficients (relative error at most `1e-8`). -/
theorem burke_cp_is_derivative (T : ℝ) (h1 : 299.999999 < T) (h2 : T ≠ 1000) (h3 : T < 5000)
    (i : BSp) :
    ∃ d, HasDerivAt (fun t => (burkeThermo t).1 i) d T ∧
      |d - (burkeThermo T).2 i| ≤ 1e-8 * (burkeThermo T).2 i := by
  rcases lt_or_gt_of_ne h2 with h | h
  · refine ⟨burkeHLowDeriv T i, ?_, ?_⟩
    · refine (burkeHLow_hasDerivAt T i).congr_of_eventuallyEq ?_
      filter_upwards [Ioo_mem_nhds h1 h] with t ht
      have hh : ¬ t > 1000 := not_lt.mpr ht.2.le
      have hl : t ≥ 299.999999 := ht.1.le
      simp only [burkeThermo, hh, hl, if_false, if_true]
    · have hh : ¬ T > 1000 := not_lt.mpr h.le
      have hl : T ≥ 299.999999 := h1.le
      simp only [burkeThermo, hh, hl, if_false, if_true]
      exact burkeHLowDeriv_close T h1.le h.le i
  · refine ⟨burkeHHighDeriv T i, ?_, ?_⟩
    · refine (burkeHHigh_hasDerivAt T i).congr_of_eventuallyEq ?_
      filter_upwards [Ioo_mem_nhds h h3] with t ht
      have hh : t > 1000 := ht.1
      simp only [burkeThermo, hh, if_true]
    · have hh : T > 1000 := h
      simp only [burkeThermo, hh, if_true]
      exact burkeHHighDeriv_close T h.le h3.le i

/-- **C120** The enthalpy is not monotone: that of nitrogen drops when the temperature rises from
1000 K by a millionth of a kelvin, because the two tables do not meet. -/
theorem burke_enthalpy_drops :
    (burkeThermo (1000 + 1 / 1000000 : ℚ)).1 .N2 < (burkeThermo (1000 : ℚ)).1 .N2 := by
  norm_num [burkeThermo, burkeHLow, burkeHHigh]

/-- The internal energy of pure oxygen, `FlameMasterReactor::GetInternalEnergy`. -/
def oxygenEnergy {K : Type*} [Field K] [LinearOrder K] (T : K) : K :=
  (burkeThermo T).1 .O2 - 8314.462175 / 32 * T

/-- **C120** Some internal energies belong to no temperature at all: for pure oxygen there is an
energy between the values at 400 K and at 2000 K which no temperature up to 5000 K attains, so
that no solver of `U(T) = e` can meet its target. -/
theorem burke_energy_gap {K : Type*} [Field K] [LinearOrder K] [IsStrictOrderedRing K] :
    ∃ e : K, oxygenEnergy 400 < e ∧ e < oxygenEnergy 2000 ∧
      ∀ T : K, T ≤ 5000 → oxygenEnergy T ≠ e := by
  refine ⟨burkeHLow 1000 .O2 - 8314.462175 / 32 * 1000 + 1 / 10, ?_, ?_, ?_⟩
  · unfold oxygenEnergy burkeThermo
    rw [if_neg (by norm_num), if_pos (by norm_num)]
    norm_num [burkeHLow]
  · unfold oxygenEnergy burkeThermo
    rw [if_pos (by norm_num)]
    norm_num [burkeHLow, burkeHHigh]
  · intro T hT
    unfold oxygenEnergy burkeThermo
    split_ifs with h1 h2
    · have h := burkeUHigh_O2 T (le_of_lt h1) hT
      have hj : (burkeHLow 1000 .O2 : K) - 8314.462175 / 32 * 1000 + 1 / 10 <
          burkeHHigh 1000 .O2 - 8314.462175 / 32 * 1000 := by
        norm_num [burkeHLow, burkeHHigh]
      exact ne_of_gt (lt_of_lt_of_le hj h)
    · have h := burkeULow_O2 T h2 (not_lt.mp h1)
      apply ne_of_lt
      linarith
    · have h := burkeULow_O2 (300 : K) (by norm_num) (by norm_num)
      have hb := burkeCpLow_bound (300 : K) (by norm_num) (by norm_num) .O2
      simp only [burkeMolarMass] at hb
      have hT3 : T - 300 ≤ 0 := by
        have := not_le.mp h2
        have h3 : (299.999999 : K) ≤ 300 := by norm_num
        linarith
      apply ne_of_lt
      show (T - 300) * burkeCpLow 300 .O2 + burkeHLow 300 .O2 - 8314.462175 / 32 * T < _
      have hc : 0 ≤ (burkeCpLow 300 .O2 : K) - 8314.462175 / 32 := by
        have h32 : (3.2e1 : K) = 32 := by norm_num
        rw [h32] at hb
        norm_num at hb ⊢
        linarith
      nlinarith [mul_nonneg (neg_nonneg.mpr hT3) hc]

/-- **C120** Above the range of the tables the heat capacity at constant volume becomes negative:
nitrogen at 9000 K. -/
theorem burke_cv_negative :
    (burkeThermo (9000 : ℚ)).2 .N2 - 8314.462175 / burkeMolarMass .N2 < 0 := by
  norm_num [burkeThermo, burkeCpHigh, burkeMolarMass]

end Fub
