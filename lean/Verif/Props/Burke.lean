import Verif.Lemmas.Burke

/-!
# Properties of the production rates of `Burke2012`
-/

namespace Fub

section
variable {K : Type*} [Field K] [CharZero K]

/-- **C118** The production rates are those of the law of mass action for the 27 chemical
equations: whatever the rate coefficients, the third body concentrations and the concentrations
are, each species is produced at the rate of its net stoichiometric coefficient times the net rate
of the reaction, summed over all reactions. -/
theorem burke_mass_action (k : BRx → K) (M : BTb → K) (c : BSp → K) (i : BSp) :
    burkeCdot (burkeRates k M c) i = massAction k M c i := by
  cases i <;>
    simp [burkeCdot, burkeRates, massAction, burkeMechanism, netRate] <;> ring

/-- **C118** Each chemical equation is balanced for each element. -/
theorem burke_equations_balanced :
    ∀ q ∈ burkeMechanism, ∀ e, atomsOf q.2.2.left e = atomsOf q.2.2.right e := by
  decide

/-- **C118** The molar mass of a species is the sum of the weights of its atoms. -/
theorem burke_molar_mass_atoms (i : BSp) :
    (burkeMolarMass i : ℚ) = ∑ e, (atoms i e : ℚ) * atomicWeight e := by
  have h : (Finset.univ : Finset Element) = {.H, .O, .N, .Ar, .He} := rfl
  rw [h]
  repeat rw [Finset.sum_insert (by decide)]
  rw [Finset.sum_singleton]
  cases i <;> norm_num [burkeMolarMass, atoms, atomicWeight]

/-- **C118** Chemistry neither creates nor destroys mass: for every vector of reaction rates. -/
theorem burke_mass_conserved (w : BRx → K) :
    ∑ i, burkeMolarMass i * burkeCdot w i = 0 := by
  rw [sum_species]
  simp only [burkeMolarMass, burkeCdot]
  ring

omit [CharZero K] in
/-- **C118** Chemistry conserves the atoms of each element: for every vector of reaction rates. -/
theorem burke_atoms_conserved (w : BRx → K) (e : Element) :
    ∑ i, (atoms i e : K) * burkeCdot w i = 0 := by
  rw [sum_species]
  cases e <;> simp only [atoms, burkeCdot] <;> push_cast <;> ring

omit [CharZero K] in
/-- **C118** Nitrogen, argon and helium are inert. -/
theorem burke_inert (w : BRx → K) :
    burkeCdot w .N2 = 0 ∧ burkeCdot w .AR = 0 ∧ burkeCdot w .HE = 0 := by
  refine ⟨?_, ?_, ?_⟩ <;> simp only [burkeCdot] <;> ring

end

/-- The concentrations of a stoichiometric hydrogen air mixture (kmol/m³), as an example. -/
noncomputable def airMixture : BSp → ℝ
  | .H2 => 0.0118
  | .O2 => 0.0059
  | .N2 => 0.0222
  | _ => 0

/-- Non-vacuity: the rate of a non-trivial state is not zero, so the sums above do not vanish
term by term. -/
example : burkeCdot (K := ℚ) (burkeRates (fun _ => 1) (fun _ => 1) (fun _ => 1)) .H = 0 ∧
    burkeCdot (K := ℚ) (burkeRates (fun _ => 1) (fun _ => 1)
      (fun i => if i = .H ∨ i = .O2 then 1 else 0)) .H = -4 := by
  constructor <;> decide +kernel

theorem log10_neg_of_le_one (x : ℝ) (h0 : 0 < x) (h1 : x ≤ 1) : log10 x ≤ 0 := by
  unfold log10
  exact div_nonpos_of_nonpos_of_nonneg (Real.log_nonpos h0.le h1) (Real.log_nonneg (by norm_num))

/-- **C119** The fall-off rate coefficient is positive and does not exceed its high pressure limit
nor its low pressure limit `k0 * conc`. Here `conc` is the positive third body concentration; a
non-positive one is replaced by `pressure / (R * temp)`. -/
theorem lind_bounds (T p k0 kInf fc conc : ℝ) (hT : 0 < T) (hp : 0 < p) (hk0 : 0 < k0)
    (hkInf : 0 < kInf) (hfc : 0 < fc) (hfc1 : fc ≤ 1) :
    0 < getLindRateCoeff T p k0 kInf fc conc ∧
    getLindRateCoeff T p k0 kInf fc conc ≤ kInf ∧
    getLindRateCoeff T p k0 kInf fc conc ≤
      k0 * (if conc ≤ 0 then p / (8314.34 * T) else conc) := by
  unfold getLindRateCoeff
  dsimp only
  set co := if conc ≤ 0 then p / (8314.34 * T) else conc with hco
  have hcopos : 0 < co := by
    rw [hco]
    split_ifs with h
    · positivity
    · exact not_le.mp h
  clear_value co
  have hmx : 0 < max kInf 1e-60 := lt_max_of_lt_left hkInf
  have hr : 0 < k0 * (co / max kInf 1e-60) := by positivity
  have hk : kInf * (k0 * (co / max kInf 1e-60)) ≤ k0 * co := by
    have h1 : kInf / max kInf 1e-60 ≤ 1 := (div_le_one hmx).mpr (le_max_left _ _)
    calc kInf * (k0 * (co / max kInf 1e-60)) = (k0 * co) * (kInf / max kInf 1e-60) := by ring
      _ ≤ (k0 * co) * 1 := by
        apply mul_le_mul_of_nonneg_left h1
        positivity
      _ = k0 * co := mul_one _
  set x := k0 * (co / max kInf 1e-60) with hx
  clear_value x
  have hb : ∀ den f : ℝ, 0 < (if den = 0 then (1 : ℝ) else fc ^ (1 / (f * f + 1))) ∧
      (if den = 0 then (1 : ℝ) else fc ^ (1 / (f * f + 1))) ≤ 1 := by
    intro den f
    split_ifs with h
    · exact ⟨one_pos, le_refl _⟩
    · have hn : (0 : ℝ) ≤ 1 / (f * f + 1) := by
        have : 0 ≤ f * f := mul_self_nonneg f
        positivity
      exact ⟨Real.rpow_pos_of_pos hfc _, Real.rpow_le_one hfc.le hfc1 hn⟩
  obtain ⟨hb0, hb1⟩ := hb (0.75 - 1.27 * log10 fc - 0.14 * (log10 x + (-0.4 - 0.67 * log10 fc)))
    ((log10 x + (-0.4 - 0.67 * log10 fc)) /
      (0.75 - 1.27 * log10 fc - 0.14 * (log10 x + (-0.4 - 0.67 * log10 fc))))
  generalize (if 0.75 - 1.27 * log10 fc - 0.14 * (log10 x + (-0.4 - 0.67 * log10 fc)) = 0 then (1 : ℝ)
    else fc ^ (1 / ((log10 x + (-0.4 - 0.67 * log10 fc)) /
      (0.75 - 1.27 * log10 fc - 0.14 * (log10 x + (-0.4 - 0.67 * log10 fc))) *
      ((log10 x + (-0.4 - 0.67 * log10 fc)) /
      (0.75 - 1.27 * log10 fc - 0.14 * (log10 x + (-0.4 - 0.67 * log10 fc)))) + 1))) = b
    at hb0 hb1 ⊢
  have hbx : b * x ≤ x := by nlinarith
  refine ⟨by positivity, ?_, ?_⟩
  · have : b * x / (1 + x) ≤ 1 := by
      rw [div_le_one (by positivity)]
      linarith
    calc kInf * (b * x / (1 + x)) ≤ kInf * 1 := mul_le_mul_of_nonneg_left this hkInf.le
      _ = kInf := mul_one _
  · have h2 : b * x / (1 + x) ≤ x := by
      rw [div_le_iff₀ (by positivity)]
      nlinarith [mul_pos hr hr]
    exact (mul_le_mul_of_nonneg_left h2 hkInf.le).trans hk

/-- Non-vacuity of `lind_bounds`. -/
example : 0 < getLindRateCoeff 1000 101325 1e9 1e9 0.5 0.01 :=
  (lind_bounds 1000 101325 1e9 1e9 0.5 0.01 (by norm_num) (by norm_num) (by norm_num)
    (by norm_num) (by norm_num) (by norm_num)).1

theorem troe_center (a b T : ℝ) (ha : 0 ≤ a) (hb : 0 < b) (hab : a + b ≤ 1) (hT : 0 < T) :
    0 < a * Real.exp (-T / 1e-30) + b * Real.exp (-T / 1e+30) ∧
    a * Real.exp (-T / 1e-30) + b * Real.exp (-T / 1e+30) ≤ 1 := by
  have h1 : Real.exp (-T / 1e-30) ≤ 1 := by
    rw [Real.exp_le_one_iff]
    exact div_nonpos_of_nonpos_of_nonneg (by linarith) (by norm_num)
  have h2 : Real.exp (-T / 1e+30) ≤ 1 := by
    rw [Real.exp_le_one_iff]
    exact div_nonpos_of_nonpos_of_nonneg (by linarith) (by norm_num)
  refine ⟨by positivity, ?_⟩
  nlinarith [Real.exp_pos (-T / 1e-30), Real.exp_pos (-T / 1e+30)]

/-- **C119** All rate coefficients are positive at every positive temperature and pressure. -/
theorem burke_rate_coeff_pos (T p : ℝ) (M : BTb → ℝ) (hT : 0 < T) (hp : 0 < p) (r : BRx) :
    0 < burkeK T p M r := by
  obtain ⟨hf1, hf2⟩ := troe_center 0.5 0.5 T (by norm_num) (by norm_num) (by norm_num) hT
  obtain ⟨hg1, hg2⟩ := troe_center 0.57 0.43 T (by norm_num) (by norm_num) (by norm_num) hT
  cases r <;> simp only [burkeK] <;>
    first
      | positivity
      | exact (lind_bounds T p _ _ _ _ hT hp (by positivity) (by positivity) hf1 hf2).1
      | exact (lind_bounds T p _ _ _ _ hT hp (by positivity) (by positivity) hg1 hg2).1

/-- **C119** Concentrations cannot be driven below zero: at every temperature, pressure and
non-negative composition the production rate of a species is at least minus a constant times its
own concentration. -/
theorem burke_loss_proportional (c : BSp → ℝ) (T p : ℝ) (hT : 0 < T) (hp : 0 < p)
    (hc : ∀ i, 0 ≤ c i) :
    ∃ L : ℝ, 0 ≤ L ∧ ∀ i, -(L * c i) ≤ burkeProduction c T p i := by
  have hk : ∀ r, 0 ≤ burkeK T p (burkeThirdBody c) r := fun r =>
    (burke_rate_coeff_pos T p _ hT hp r).le
  have hM := burkeThirdBody_nonneg c hc
  set k := burkeK T p (burkeThirdBody c) with hkdef
  refine ⟨∑ i, burkeLoss k (burkeThirdBody c) c i, Finset.sum_nonneg fun i _ =>
    burkeLoss_nonneg _ _ _ hk hM hc i, fun i => ?_⟩
  unfold burkeProduction
  rw [← hkdef, burkeCdot_gain_loss]
  have h1 := burkeGain_nonneg k (burkeThirdBody c) c hk hM hc i
  have h2 : burkeLoss k (burkeThirdBody c) c i ≤ ∑ j, burkeLoss k (burkeThirdBody c) c j :=
    Finset.single_le_sum (f := fun j => burkeLoss k (burkeThirdBody c) c j)
      (fun j _ => burkeLoss_nonneg _ _ _ hk hM hc j) (Finset.mem_univ i)
  have h3 := mul_le_mul_of_nonneg_right h2 (hc i)
  linarith

/-- **C119** A species which is absent is never consumed. -/
theorem burke_quasi_positive (c : BSp → ℝ) (T p : ℝ) (hT : 0 < T) (hp : 0 < p)
    (hc : ∀ i, 0 ≤ c i) (i : BSp) (hi : c i = 0) : 0 ≤ burkeProduction c T p i := by
  obtain ⟨L, -, h⟩ := burke_loss_proportional c T p hT hp hc
  have := h i
  rwa [hi, mul_zero, neg_zero] at this

/-- **C119** A small enough explicit step keeps all concentrations non-negative. -/
theorem burke_small_step_nonneg (c : BSp → ℝ) (T p : ℝ) (hT : 0 < T) (hp : 0 < p)
    (hc : ∀ i, 0 ≤ c i) :
    ∃ dt0 : ℝ, 0 < dt0 ∧ ∀ dt, 0 ≤ dt → dt ≤ dt0 → ∀ i, 0 ≤ c i + dt * burkeProduction c T p i := by
  obtain ⟨L, hL, h⟩ := burke_loss_proportional c T p hT hp hc
  refine ⟨1 / (L + 1), by positivity, fun dt h0 h1 i => ?_⟩
  have h2 : dt * (L + 1) ≤ 1 := by
    rwa [le_div_iff₀ (by positivity)] at h1
  have h3 : dt * L ≤ 1 := by nlinarith
  have h4 := mul_le_mul_of_nonneg_left (h i) h0
  have h5 : (dt * L) * c i ≤ 1 * c i := mul_le_mul_of_nonneg_right h3 (hc i)
  linarith [h4, h5, show dt * -(L * c i) = -((dt * L) * c i) by ring]

/-- Non-vacuity: in the fresh mixture of hydrogen and air the radical `H` is absent. -/
example : 0 ≤ burkeProduction airMixture 1000 101325 .H :=
  burke_quasi_positive airMixture 1000 101325 (by norm_num) (by norm_num)
    (by intro i; cases i <;> norm_num [airMixture]) .H rfl

end Fub
