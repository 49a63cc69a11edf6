import Verif.Model.IsentropicBoundary
import Verif.Props.Supplement
import Verif.Props.KineticSource
import Mathlib.Analysis.Calculus.MeanValue
import Mathlib.Analysis.SpecialFunctions.Log.Deriv
import Mathlib.Analysis.SpecialFunctions.Pow.Real

/-!
# C143: The isentropic pressure boundaries of the ideal gas mixture
-/

namespace Fub
variable {d : ℕ} {S : Type*} [Fintype S]

/-! ## Specification -/

/-- Specific static enthalpy of a mixture at a temperature. -/
noncomputable def mixtureEnthalpy (m : Mechanism S ℝ) (Y : S → ℝ) (T : ℝ) : ℝ := ∑ i, Y i * (m.thermo T).1 i

/-- Specific heat capacity at constant pressure. -/
noncomputable def mixtureCp (m : Mechanism S ℝ) (Y : S → ℝ) (T : ℝ) : ℝ := ∑ i, (m.thermo T).2 i * Y i

/-- Specific gas constant. -/
noncomputable def mixtureR (m : Mechanism S ℝ) (Y : S → ℝ) : ℝ := m.gasConstant * ∑ i, Y i / m.molarMass i

/-- The solver solved its problem exactly: the result is the value at `p` of a solution which starts at the state of the reactor. -/
def IsoRun.Exact (m : Mechanism S ℝ) (run : IsoRun) (p : ℝ) (s : ReactorState S ℝ) (Θ U : ℝ → ℝ) : Prop :=
  Θ (s.pressure m) = s.temperature ∧ U (s.pressure m) = 0 ∧ Θ p = run.temperature ∧ U p = run.velocity ∧
    ∀ x ∈ Set.uIcc (s.pressure m) p, 0 < Θ x ∧ HasDerivAt Θ (odeRhsSetP m s (Θ x) x).1 x ∧ HasDerivAt U (odeRhsSetP m s (Θ x) x).2 x

/-! ## The change of the pressure -/

theorem isoStage_spec (m : Mechanism S ℝ) (s : ReactorState S ℝ) (y : ℝ × ℝ) (hs : Cached m s) :
    Cached m (s.isoStage m y) ∧ (s.isoStage m y).massFractions = s.massFractions ∧ (s.isoStage m y).temperature = y.1 ∧
    (s.isoStage m y).thermoTemp = y.1 ∧ (s.isoStage m y).density = y.2 * s.meanMolarMass m / y.1 / m.gasConstant := by
  unfold ReactorState.isoStage
  rw [setTemperature_fields m s y.1 hs]
  exact ⟨⟨rfl, rfl⟩, rfl, rfl, rfl, rfl⟩

theorem isoStages_spec (m : Mechanism S ℝ) (l : List (ℝ × ℝ)) (s : ReactorState S ℝ) (hs : Cached m s) :
    Cached m (l.foldl (fun x y => x.isoStage m y) s) ∧ (l.foldl (fun x y => x.isoStage m y) s).massFractions = s.massFractions := by
  induction l generalizing s with
  | nil => exact ⟨hs, rfl⟩
  | cons y l ih =>
    obtain ⟨h1, h2, -⟩ := isoStage_spec m s y hs
    obtain ⟨h3, h4⟩ := ih _ h1
    exact ⟨h3, h4.trans h2⟩

/-- **C143 (pressure).** For every mechanism, reactor, pressure and every behaviour of the ODE solver: unless the pressure is already met within `1e-5`
(then nothing happens and the velocity is zero), the reactor has the wanted pressure, the same composition, the temperature which the solver found and
the tables of this temperature; the evaluations of the right-hand side leave no trace. -/
theorem setPressureIsentropic_spec (m : Mechanism S ℝ) (run : IsoRun) (p : ℝ) (s : ReactorState S ℝ) (hs : Cached m s)
    (hT : run.temperature ≠ 0) (hR : m.gasConstant ≠ 0) (hY : ∑ i, s.massFractions i / m.molarMass i ≠ 0) :
    let s' := (s.setPressureIsentropic m run p).1
    let u := (s.setPressureIsentropic m run p).2
    Cached m s' ∧ s'.massFractions = s.massFractions ∧ (|p - s.pressure m| < 1e-5 → s' = s ∧ u = 0) ∧
    (1e-5 ≤ |p - s.pressure m| → s'.pressure m = p ∧ s'.temperature = run.temperature ∧ s'.thermoTemp = run.temperature ∧ u = run.velocity ∧
      s'.density = p / (run.temperature * mixtureR m s.massFractions)) := by
  intro s' u
  by_cases h : |p - s.pressure m| < 1e-5
  · have e : s.setPressureIsentropic m run p = (s, 0) := if_pos h
    refine ⟨by simp only [s', e]; exact hs, by simp only [s', e], fun _ => by simp only [s', u, e]; exact ⟨trivial, trivial⟩, fun h2 => absurd h (not_lt.2 h2)⟩
  · obtain ⟨h3, h4⟩ := isoStages_spec m run.stages s hs
    have e : s.setPressureIsentropic m run p =
        ((run.stages.foldl (fun x y => x.isoStage m y) s).isoStage m (run.temperature, p), run.velocity) := if_neg h
    obtain ⟨k1, k2, k3, k4, k5⟩ := isoStage_spec m (run.stages.foldl (fun x y => x.isoStage m y) s) (run.temperature, p) h3
    have hM : (run.stages.foldl (fun x y => x.isoStage m y) s).meanMolarMass m = 1 / ∑ i, s.massFractions i / m.molarMass i := by
      unfold ReactorState.meanMolarMass; rw [h4]
    have hd : s'.density = p / (run.temperature * mixtureR m s.massFractions) := by
      simp only [s', e]
      rw [k5, hM, mixtureR]
      field_simp
    refine ⟨by simp only [s', e]; exact k1, by simp only [s', e]; exact k2.trans h4, fun h2 => absurd h2 h, fun _ => ⟨?_, by simp only [s', e]; exact k3,
      by simp only [s', e]; exact k4, by simp only [u, e], hd⟩⟩
    have hm : s'.massFractions = s.massFractions := by simp only [s', e]; exact k2.trans h4
    have ht : s'.temperature = run.temperature := by simp only [s', e]; exact k3
    unfold ReactorState.pressure ReactorState.meanMolarMass
    rw [hd, hm, ht, mixtureR]
    field_simp

/-- What the right-hand side is in terms of the mixture: `dT/dp = 1/(ρ cp)` and `du/dp = -1/(ρ c)` with the density and the speed of sound at temperature `T` and pressure `p`. -/
theorem odeRhsSetP_eq (m : Mechanism S ℝ) (s : ReactorState S ℝ) (hs : Cached m s) (T p : ℝ) (hT : 0 < T) (hp : 0 < p)
    (hR : 0 < mixtureR m s.massFractions) (hcp : mixtureR m s.massFractions < mixtureCp m s.massFractions T) :
    let ρ := p / (T * mixtureR m s.massFractions)
    let γ := mixtureCp m s.massFractions T / (mixtureCp m s.massFractions T - mixtureR m s.massFractions)
    odeRhsSetP m s T p = (1 / (ρ * mixtureCp m s.massFractions T), -(1 / (ρ * Real.sqrt (γ * p / ρ)))) := by
  intro ρ γ
  have hρ : 0 < ρ := by positivity
  obtain ⟨k1, k2, k3, k4, k5⟩ := isoStage_spec m s (T, p) hs
  set r := s.isoStage m (T, p) with hr
  have hd : r.density = ρ := by
    rw [k5]
    simp only [ρ, mixtureR, ReactorState.meanMolarMass] at hR ⊢
    have h1 : m.gasConstant ≠ 0 := fun h => by simp [h] at hR
    have h2 : ∑ i, s.massFractions i / m.molarMass i ≠ 0 := fun h => by simp [h] at hR
    field_simp
  have hc : r.cp = mixtureCp m s.massFractions T := by
    unfold ReactorState.cp ReactorState.meanY
    rw [k1.2, k2, k4]; rfl
  have hv : r.cv m = mixtureCp m s.massFractions T - mixtureR m s.massFractions := by
    unfold ReactorState.cv ReactorState.meanMolarMass
    rw [hc, k2, div_div_eq_mul_div, div_one]; rfl
  have hC : 0 < mixtureCp m s.massFractions T := hR.trans hcp
  have hV : 0 < mixtureCp m s.massFractions T - mixtureR m s.massFractions := by linarith
  unfold odeRhsSetP
  simp only [← hr, hd, hc, hv, γ]
  clear_value ρ
  generalize mixtureR m s.massFractions = R at *
  generalize mixtureCp m s.massFractions T = C at *
  congr 1
  congr 1
  have h2 : ρ * Real.sqrt (C / (C - R) * p / ρ) = Real.sqrt (C / (C - R) * p * ρ) := by
    have e : C / (C - R) * p * ρ = ρ ^ 2 * (C / (C - R) * p / ρ) := by field_simp
    rw [e, Real.sqrt_mul (by positivity), Real.sqrt_sq hρ.le]
  rw [h2, one_div, ← Real.sqrt_inv]
  congr 1
  field_simp

theorem const_on_uIcc {f : ℝ → ℝ} {a b : ℝ} (h : ∀ x ∈ Set.uIcc a b, HasDerivAt f 0 x) : f b = f a := by
  have := Convex.norm_image_sub_le_of_norm_hasDerivWithin_le (f := f) (f' := fun _ => 0) (C := 0) (s := Set.uIcc a b) (x := a) (y := b)
    (fun x hx => (h x hx).hasDerivWithinAt) (fun _ _ => by simp) (convex_uIcc a b) Set.left_mem_uIcc Set.right_mem_uIcc
  rw [zero_mul, norm_le_zero_iff, sub_eq_zero] at this
  exact this

/-- **C143 (entropy).** Along an exact solution the entropy is constant: for every function `σ` whose derivative is `cp(T) / T` the value of
`σ(T) - R_s log p` is the same before and after. The enthalpy grows by `∫ dp / ρ`, and the velocity falls by `∫ dp / (ρ c)`, as derivatives along the path. -/
theorem isentropic_exact (m : Mechanism S ℝ) (run : IsoRun) (p : ℝ) (s : ReactorState S ℝ) (hs : Cached m s) (Θ U : ℝ → ℝ)
    (hrun : run.Exact m p s Θ U) (hp0 : 0 < s.pressure m) (hp : 0 < p) (hR : 0 < mixtureR m s.massFractions)
    (hcp : ∀ x ∈ Set.uIcc (s.pressure m) p, mixtureR m s.massFractions < mixtureCp m s.massFractions (Θ x)) :
    (∀ σ : ℝ → ℝ, (∀ x ∈ Set.uIcc (s.pressure m) p, HasDerivAt σ (mixtureCp m s.massFractions (Θ x) / Θ x) (Θ x)) →
      σ run.temperature - mixtureR m s.massFractions * Real.log p = σ s.temperature - mixtureR m s.massFractions * Real.log (s.pressure m)) ∧
    ∀ x ∈ Set.uIcc (s.pressure m) p, let ρ := x / (Θ x * mixtureR m s.massFractions)
      let γ := mixtureCp m s.massFractions (Θ x) / (mixtureCp m s.massFractions (Θ x) - mixtureR m s.massFractions)
      ((∀ i, HasDerivAt (fun T => (m.thermo T).1 i) ((m.thermo (Θ x)).2 i) (Θ x)) →
        HasDerivAt (fun x => mixtureEnthalpy m s.massFractions (Θ x)) (1 / ρ) x) ∧
      HasDerivAt U (-(1 / (ρ * Real.sqrt (γ * x / ρ)))) x := by
  obtain ⟨a1, a2, a3, a4, a5⟩ := hrun
  have hpos : ∀ x ∈ Set.uIcc (s.pressure m) p, 0 < x := fun x hx => lt_of_lt_of_le (lt_min hp0 hp) hx.1
  have key : ∀ x ∈ Set.uIcc (s.pressure m) p, odeRhsSetP m s (Θ x) x = _ := fun x hx =>
    odeRhsSetP_eq m s hs (Θ x) x (a5 x hx).1 (hpos x hx) hR (hcp x hx)
  constructor
  · intro σ hσ
    rw [← a1, ← a3]
    refine const_on_uIcc (f := fun x => σ (Θ x) - mixtureR m s.massFractions * Real.log x) (fun x hx => ?_)
    obtain ⟨b1, b2, -⟩ := a5 x hx
    have hx0 := hpos x hx
    have h1 := HasDerivAt.comp x (hσ x hx) b2
    have h2 := (Real.hasDerivAt_log hx0.ne').const_mul (mixtureR m s.massFractions)
    refine (h1.sub h2).congr_deriv ?_
    rw [key x hx]
    have hC : 0 < mixtureCp m s.massFractions (Θ x) := hR.trans (hcp x hx)
    field_simp
    ring
  · intro x hx ρ γ
    obtain ⟨b1, b2, b3⟩ := a5 x hx
    have hx0 := hpos x hx
    have hC : 0 < mixtureCp m s.massFractions (Θ x) := hR.trans (hcp x hx)
    have hρ : 0 < ρ := by positivity
    constructor
    · intro hth
      have h1 : HasDerivAt (fun T => mixtureEnthalpy m s.massFractions T) (mixtureCp m s.massFractions (Θ x)) (Θ x) := by
        have := HasDerivAt.fun_sum (u := Finset.univ) fun i _ => (hth i).const_mul (s.massFractions i)
        refine this.congr_deriv (Finset.sum_congr rfl fun i _ => mul_comm _ _)
      refine (HasDerivAt.comp x h1 b2).congr_deriv ?_
      rw [key x hx]
      show mixtureCp m s.massFractions (Θ x) * (1 / (ρ * mixtureCp m s.massFractions (Θ x))) = 1 / ρ
      field_simp
    · refine b3.congr_deriv ?_
      rw [key x hx]

/-- **C143 (calorically perfect gas).** If the heat capacity does not depend on the temperature, the exact solver finds the temperature of the
isentropic relation `T' = T (p' / p)^(R/cp)`. -/
theorem isentropic_perfect (m : Mechanism S ℝ) (run : IsoRun) (p : ℝ) (s : ReactorState S ℝ) (hs : Cached m s) (Θ U : ℝ → ℝ)
    (hrun : run.Exact m p s Θ U) (hp0 : 0 < s.pressure m) (hp : 0 < p) (hR : 0 < mixtureR m s.massFractions) (C : ℝ)
    (hC : ∀ T, mixtureCp m s.massFractions T = C) (hRC : mixtureR m s.massFractions < C) :
    run.temperature = s.temperature * (p / s.pressure m) ^ (mixtureR m s.massFractions / C) := by
  have hCpos : 0 < C := hR.trans hRC
  have h1 : 0 < run.temperature := by rw [← hrun.2.2.1]; exact (hrun.2.2.2.2 p Set.right_mem_uIcc).1
  have h0 : 0 < s.temperature := by rw [← hrun.1]; exact (hrun.2.2.2.2 _ Set.left_mem_uIcc).1
  have h := (isentropic_exact m run p s hs Θ U hrun hp0 hp hR (fun x _ => by rw [hC]; exact hRC)).1 (fun T => C * Real.log T) (fun x hx => by
    have hx := (hrun.2.2.2.2 x hx).1
    refine ((Real.hasDerivAt_log hx.ne').const_mul C).congr_deriv ?_
    rw [hC]; rfl)
  have hl : Real.log run.temperature = Real.log (s.temperature * (p / s.pressure m) ^ (mixtureR m s.massFractions / C)) := by
    rw [Real.log_mul h0.ne' (Real.rpow_pos_of_pos (by positivity) _).ne', Real.log_rpow (by positivity), Real.log_div hp.ne' hp0.ne']
    field_simp
    linarith
  exact Real.log_injOn_pos (Set.mem_Ioi.2 h1) (Set.mem_Ioi.2 (mul_pos h0 (Real.rpow_pos_of_pos (by positivity) _))) hl

/-! ## The ghost states -/

theorem totalEnthalpy_mixture (m : Mechanism S ℝ) (ρ : ℝ) (hρ : ρ ≠ 0) (v : Fin d → ℝ) (Y : S → ℝ) (T : ℝ) (q : IgmComplete d S)
    (hq : IsMixture m ρ v Y T q) : igmTotalEnthalpy q = mixtureEnthalpy m Y T + 1 / 2 * ∑ i, v i * v i := by
  have h : ∑ i, Y i * ((m.thermo T).1 i - m.gasConstant / m.molarMass i * T) = mixtureEnthalpy m Y T - m.gasConstant * T * ∑ i, Y i / m.molarMass i := by
    rw [mixtureEnthalpy, Finset.mul_sum, ← Finset.sum_sub_distrib]
    exact Finset.sum_congr rfl fun i _ => by ring
  rw [igmTotalEnthalpy, hq.energy, hq.pressure, hq.density, h]
  field_simp
  ring

/-- The reactor behind the change of the pressure, for the state of a mixture. -/
theorem expansion_reactor (m : Mechanism S ℝ) (run : IsoRun) (pDest ρ : ℝ) (v : Fin d → ℝ) (Y : S → ℝ) (T : ℝ) (src : IgmComplete d S) (s : ReactorState S ℝ)
    (hs : Cached m s) (hq : IsMixture m ρ v Y T src) (hρ : 0 < ρ) (hY : ∀ i, 0 ≤ Y i) (h1 : ∑ i, Y i = 1) (hR : m.gasConstant ≠ 0)
    (hm : ∑ i, Y i / m.molarMass i ≠ 0) (hp : pDest ≠ 0) (hT : run.temperature ≠ 0) (w : Fin d → ℝ) :
    let s1 := igmSetReactor m src s
    let s2 := (s1.setPressureIsentropic m run pDest).1
    IsMixture m ρ w Y T (igmCompleteFromReactor m s1 w) ∧
    IsMixture m s2.density w Y (if |pDest - src.pressure| < 1e-5 then T else run.temperature) (igmCompleteFromReactor m s2 w) ∧ s2.density ≠ 0 ∧
    s2.pressure m = (if |pDest - src.pressure| < 1e-5 then src.pressure else pDest) := by
  intro s1 s2
  obtain ⟨r1, r2, r3, r4, -⟩ := igm_set_reactor m s hs ρ v Y T src hρ hY h1 hq
  have hc1 : Cached m s1 ∧ s1.thermoTemp = s1.temperature := by
    simp only [s1, igmSetReactor]
    rw [setTemperature_fields m _ _ (show Cached m ((s.setDensity src.density).setMassFractions m src.species) from hs)]
    exact ⟨⟨rfl, rfl⟩, rfl⟩
  have hs1 : s1.massFractions = Y := r2
  obtain ⟨k1, k2, k3, k4⟩ := setPressureIsentropic_spec m run pDest s1 hc1.1 hT hR (by rw [hs1]; exact hm)
  have hp1 : s1.pressure m = src.pressure := r4
  have e1 := igm_complete_from_reactor m s1 w hc1.1 hc1.2 (by rw [show s1.density = ρ from r1]; exact hρ.ne')
  rw [show s1.density = ρ from r1, hs1, show s1.temperature = T from r3] at e1
  rw [hp1] at k3 k4
  by_cases h : |pDest - src.pressure| < 1e-5
  · have e2 : s2 = s1 := (k3 h).1
    rw [if_pos h, if_pos h, e2]
    refine ⟨e1, ?_, by rw [show s1.density = ρ from r1]; exact hρ.ne', hp1⟩
    rw [show s1.density = ρ from r1]; exact e1
  · obtain ⟨j1, j2, j3, -, j5⟩ := k4 (not_lt.1 h)
    have hd : s2.density ≠ 0 := by
      rw [show s2.density = _ from j5, hs1]
      exact div_ne_zero hp (mul_ne_zero hT (mul_ne_zero hR hm))
    rw [if_neg h, if_neg h]
    refine ⟨e1, ?_, hd, j1⟩
    have e2 := igm_complete_from_reactor m s2 w k1 (j3.trans j2.symm) hd
    rw [show s2.massFractions = Y from k2.trans hs1, show s2.temperature = run.temperature from j2] at e2
    exact e2

/-- **C143 (one dimension).** For every mixture and every behaviour of the solver the ghost state is the complete state of a mixture of the same
composition with the outer pressure (unless it is already met within `1e-5`) and the temperature found by the solver. Its velocity is `isoVelocity` of the
difference of the enthalpies at the two temperatures. -/
theorem igmExpansion1d_state (m : Mechanism S ℝ) (run : IsoRun) (pDest eff ρ u : ℝ) (Y : S → ℝ) (T : ℝ) (src : IgmComplete 1 S) (s : ReactorState S ℝ)
    (hs : Cached m s) (hq : IsMixture m ρ (fun _ => u) Y T src) (hρ : 0 < ρ) (hY : ∀ i, 0 ≤ Y i) (h1 : ∑ i, Y i = 1) (hR : m.gasConstant ≠ 0)
    (hm : ∑ i, Y i / m.molarMass i ≠ 0) (hp : pDest ≠ 0) (hT : run.temperature ≠ 0) :
    let q := (igmExpansion1d m run pDest eff src s).2
    let T' := if |pDest - src.pressure| < 1e-5 then T else run.temperature
    IsMixture m q.density (fun _ => isoVelocity eff (mixtureEnthalpy m Y T - mixtureEnthalpy m Y T') u) Y T' q ∧
    q.pressure = (if |pDest - src.pressure| < 1e-5 then src.pressure else pDest) ∧ q.density ≠ 0 := by
  intro q T'
  obtain ⟨e1, e2, e3, e4⟩ := expansion_reactor m run pDest ρ _ Y T src s hs hq hρ hY h1 hR hm hp hT (fun _ : Fin 1 => 0)
  set s1 := igmSetReactor m src s with hs1
  set s2 := (s1.setPressureIsentropic m run pDest).1 with hs2
  have t1 := totalEnthalpy_mixture m ρ hρ.ne' _ Y T _ e1
  have t2 := totalEnthalpy_mixture m s2.density e3 _ Y T' _ e2
  simp only [mul_zero, Finset.sum_const_zero, add_zero] at t1 t2
  have hu : src.momentum 0 / src.density = u := by
    rw [hq.momentum, hq.density, mul_div_cancel_left₀ _ hρ.ne']
  set v := isoVelocity eff (mixtureEnthalpy m Y T - mixtureEnthalpy m Y T') u with hv
  have hqe : q = { igmCompleteFromReactor m s2 (fun _ : Fin 1 => 0) with
      momentum := fun _ => s2.density * v, energy := (igmCompleteFromReactor m s2 (fun _ : Fin 1 => 0)).energy + 1 / 2 * v * (s2.density * v) } := by
    have : q = { igmCompleteFromReactor m s2 (fun _ : Fin 1 => 0) with
      momentum := fun _ => s2.density * isoVelocity eff (igmTotalEnthalpy (igmCompleteFromReactor m s1 (fun _ : Fin 1 => 0)) -
          igmTotalEnthalpy (igmCompleteFromReactor m s2 (fun _ : Fin 1 => 0))) (src.momentum 0 / src.density),
      energy := (igmCompleteFromReactor m s2 (fun _ : Fin 1 => 0)).energy + 1 / 2 * isoVelocity eff (igmTotalEnthalpy (igmCompleteFromReactor m s1 (fun _ : Fin 1 => 0)) -
          igmTotalEnthalpy (igmCompleteFromReactor m s2 (fun _ : Fin 1 => 0))) (src.momentum 0 / src.density) * (s2.density * isoVelocity eff (igmTotalEnthalpy (igmCompleteFromReactor m s1 (fun _ : Fin 1 => 0)) -
          igmTotalEnthalpy (igmCompleteFromReactor m s2 (fun _ : Fin 1 => 0))) (src.momentum 0 / src.density)) } := rfl
    rw [this, t1, t2, hu]
  rw [hqe]
  refine ⟨⟨rfl, fun _ => rfl, e2.species, ?_, e2.temperature, e2.pressure, e2.cp, e2.gamma, e2.speedOfSound⟩, e4, e3⟩
  show (igmCompleteFromReactor m s2 (fun _ : Fin 1 => 0)).energy + 1 / 2 * v * (s2.density * v) = _
  have e2' : IsMixture m s2.density (fun _ => 0) Y T' (igmCompleteFromReactor m s2 (fun _ : Fin 1 => 0)) := e2
  rw [e2'.energy]
  show _ = s2.density * (∑ i, Y i * ((m.thermo T').1 i - m.gasConstant / m.molarMass i * T')) + 1 / 2 * s2.density * ∑ _i : Fin 1, v * v
  simp only [mul_zero, Finset.sum_const, Finset.sum_const_zero, add_zero, Finset.card_univ, Fintype.card_fin, one_smul]
  ring

theorem sgn_pos {x : ℝ} (h : 0 < x) : sgn x = 1 := if_pos h
theorem sgn_neg {x : ℝ} (h : x < 0) : sgn x = -1 := by rw [sgn, if_neg (not_lt.2 h.le), if_pos h]
theorem sgn_zero : sgn 0 = 0 := by simp [sgn]

/-- **C143 (outflow to the right).** When the gas moves in positive direction and the enthalpy falls, the gas behind the expansion is faster, moves in the
same direction and has the same total enthalpy. -/
theorem isoVelocity_partial (dh u : ℝ) (hdh : 0 < dh) (hu : 0 < u) :
    u < isoVelocity 1 dh u ∧ 1 / 2 * isoVelocity 1 dh u ^ 2 - dh = 1 / 2 * u ^ 2 := by
  have e : isoVelocity 1 dh u = Real.sqrt (dh * 2 + u * u) := by
    rw [isoVelocity, sgn_pos hdh, sgn_pos hu, if_pos rfl, abs_of_pos hdh, one_mul, one_mul]
  rw [e]
  constructor
  · exact Real.lt_sqrt_of_sq_lt (by nlinarith)
  · rw [Real.sq_sqrt (by nlinarith)]; ring

/-- **C143 is false.** At equal enthalpy (equal pressure) every flow leaves in negative direction. A flow in positive direction against a slightly higher
pressure is reversed. A flow in negative direction into a lower pressure (outflow at the left side) is slowed down, by twice the difference of the enthalpies, or is
reversed. An inflow from the right (higher pressure outside) has a ghost state with a too large total enthalpy. -/
theorem isoVelocity_wrong (dh u : ℝ) :
    (dh = 0 → isoVelocity 1 dh u = -|u|) ∧
    (0 < u → dh < 0 → -(2 * dh) < u ^ 2 → isoVelocity 1 dh u < 0) ∧
    (u < 0 → 0 < dh → 2 * dh ≤ u ^ 2 → isoVelocity 1 dh u ^ 2 = u ^ 2 - 2 * dh ∧ (1 / 2 * isoVelocity 1 dh u ^ 2 - dh) = 1 / 2 * u ^ 2 - 2 * dh) ∧
    (u < 0 → 0 < dh → u ^ 2 < 2 * dh → 0 < isoVelocity 1 dh u) ∧
    (u < 0 → dh < 0 → 1 / 2 * isoVelocity 1 dh u ^ 2 - dh = 1 / 2 * u ^ 2 - 2 * dh) := by
  refine ⟨?_, ?_, ?_, ?_, ?_⟩
  · rintro rfl
    by_cases hu : u = 0
    · subst hu; simp [isoVelocity, sgn_zero]
    · have hne : sgn u ≠ sgn 0 := by
        rw [sgn_zero]
        rcases lt_or_gt_of_ne hu with h | h
        · rw [sgn_neg h]; norm_num
        · rw [sgn_pos h]; norm_num
      have hneg : 1 * |(0 : ℝ)| * 2 - u * u < 0 := by
        have := mul_self_pos.2 hu
        simp only [abs_zero]; linarith
      rw [isoVelocity, if_neg hne]
      dsimp only
      rw [if_neg (not_lt.2 hneg.le), sgn_neg hneg, abs_of_neg hneg]
      have : -(1 * |(0 : ℝ)| * 2 - u * u) = u * u := by simp
      rw [this, Real.sqrt_mul_self_eq_abs]; ring
  · intro hu hd hlt
    have hneg : 1 * |dh| * 2 - u * u < 0 := by rw [abs_of_neg hd]; nlinarith
    rw [isoVelocity, sgn_pos hu, sgn_neg hd, if_neg (by norm_num)]
    dsimp only
    rw [if_neg (not_lt.2 hneg.le), sgn_neg hneg]
    have := Real.sqrt_pos.2 (abs_pos.2 hneg.ne)
    linarith
  · intro hu hd hle
    have hneg : 1 * |dh| * 2 - u * u ≤ 0 := by rw [abs_of_pos hd]; nlinarith
    have hsq : isoVelocity 1 dh u ^ 2 = u ^ 2 - 2 * dh := by
      rw [isoVelocity, sgn_neg hu, sgn_pos hd, if_neg (by norm_num)]
      dsimp only
      rw [if_neg (not_lt.2 hneg), sgn_sqrt_sq, abs_of_nonpos hneg, abs_of_pos hd]; ring
    exact ⟨hsq, by rw [hsq]; ring⟩
  · intro hu hd hlt
    have hpos : 0 < 1 * |dh| * 2 - u * u := by rw [abs_of_pos hd]; nlinarith
    rw [isoVelocity, sgn_neg hu, sgn_pos hd, if_neg (by norm_num)]
    dsimp only
    rw [if_pos hpos, one_mul]
    exact Real.sqrt_pos.2 (abs_pos.2 hpos.ne')
  · intro hu hd
    rw [isoVelocity, sgn_neg hu, sgn_neg hd, if_pos rfl, mul_pow, Real.sq_sqrt (add_nonneg (by positivity) (mul_self_nonneg u)), abs_of_neg hd]
    ring

/-- **C143 (embedded boundary): the ghost state is at rest.** For every subsonic state of a mixture, every outer pressure and every solver the ghost state is
the mixture at rest with the temperature of the inner cell and the outer pressure: neither the velocity nor the entropy is kept. Other states are copied. -/
theorem igmGhostCut_rest (m : Mechanism S ℝ) (run : IsoRun) (pOut ρ : ℝ) (v : Fin (d + 1) → ℝ) (Y : S → ℝ) (T : ℝ) (q : IgmComplete (d + 1) S) (s : ReactorState S ℝ)
    (hs : Cached m s) (hq : IsMixture m ρ v Y T q) (hρ : 0 < ρ) (hY : ∀ i, 0 ≤ Y i) (h1 : ∑ i, Y i = 1) (hR : 0 < m.gasConstant)
    (hm : 0 < ∑ i, Y i / m.molarMass i) (hp : 0 < pOut) (hT : 0 < T) (hTr : run.temperature ≠ 0) :
    let q' := (igmGhostCut m run pOut q s).2
    (∑ i, v i * v i < q.speedOfSound * q.speedOfSound → IsMixture m (pOut / (T * mixtureR m Y)) (fun _ => 0) Y T q' ∧ q'.pressure = pOut) ∧
    (q.speedOfSound * q.speedOfSound ≤ ∑ i, v i * v i → q' = q) := by
  intro q'
  have hv : ∀ i, q.momentum i / q.density = v i := fun i => by rw [hq.momentum, hq.density]; field_simp
  constructor
  · intro hsub
    obtain ⟨r1, r2, r3, r4, -⟩ := igm_set_reactor m s hs ρ v Y T q hρ hY h1 hq
    have hc0 : Cached m (igmSetReactor m q s) ∧ (igmSetReactor m q s).thermoTemp = T := by
      simp only [igmSetReactor]
      rw [setTemperature_fields m _ _ (show Cached m ((s.setDensity q.density).setMassFractions m q.species) from hs)]
      exact ⟨⟨rfl, rfl⟩, hq.temperature⟩
    obtain ⟨s1, hs1⟩ : ∃ s1, s1 = (igmSetReactor m q s).setPressure m pOut := ⟨_, rfl⟩
    have hq' : q' = (igmExpansionCut m run pOut 1 (igmCompleteFromReactor m s1 fun _ => 0) s1).2 := by
      simp only [q', igmGhostCut, hv]
      rw [if_pos hsub, hs1]; rfl
    obtain ⟨p1, p2, p3⟩ := set_pressure_round_trip m (igmSetReactor m q s) pOut (by rw [r3]; exact hT.ne') hR.ne' (by rw [r2]; exact hm.ne')
    rw [← hs1] at p1 p2 p3
    rw [r3] at p2
    rw [r2] at p3
    have hd : s1.density = pOut / (T * mixtureR m Y) := by
      rw [hs1]
      show pOut * (igmSetReactor m q s).meanMolarMass m / (igmSetReactor m q s).temperature / m.gasConstant = _
      rw [r3, ReactorState.meanMolarMass, r2, mixtureR]
      field_simp
    have hR' : 0 < mixtureR m Y := mul_pos hR hm
    have hd0 : 0 < s1.density := by rw [hd]; positivity
    have hc1 : Cached m s1 ∧ s1.thermoTemp = s1.temperature := by rw [p2, hs1]; exact hc0
    have hmix := igm_complete_from_reactor m s1 (fun _ : Fin (d + 1) => 0) hc1.1 hc1.2 hd0.ne'
    rw [p2, p3] at hmix
    set q1 := igmCompleteFromReactor m s1 (fun _ : Fin (d + 1) => 0) with hq1
    have hpq : q1.pressure = pOut := p1
    obtain ⟨e1, e2, e3, e4⟩ := expansion_reactor m run pOut s1.density _ Y T q1 s1 hc1.1 hmix hd0 hY h1 hR.ne' hm.ne' hp.ne' hTr (fun _ => 0)
    have hif : |pOut - q1.pressure| < 1e-5 := by rw [hpq, sub_self, abs_zero]; norm_num
    rw [if_pos hif] at e2 e4
    obtain ⟨k1, k2, k3, -⟩ := setPressureIsentropic_spec m run pOut (igmSetReactor m q1 s1)
      (by simp only [igmSetReactor]
          rw [setTemperature_fields m _ _ (show Cached m ((s1.setDensity q1.density).setMassFractions m q1.species) from hc1.1)]
          exact ⟨rfl, rfl⟩) hTr hR.ne' (by
        rw [(igm_set_reactor m s1 hc1.1 s1.density _ Y T q1 hd0 hY h1 hmix).2.1]; exact hm.ne')
    obtain ⟨j1, -, -, j4, j5⟩ := igm_set_reactor m s1 hc1.1 s1.density _ Y T q1 hd0 hY h1 hmix
    have hs2 := (k3 (by rw [j4]; exact hif)).1
    have hold : ∀ i, q1.momentum i / q1.density = 0 := fun i => by rw [hmix.momentum, mul_zero, zero_div]
    have hqq : q' = q1 := by
      rw [hq']
      simp only [igmExpansionCut]
      rw [hs2, j5]
      simp only [hold, sub_self, sgn_zero, zero_mul, ite_self, mul_zero, Finset.sum_const_zero, zero_div, add_zero]
      have hmom : q1.momentum = fun _ => 0 := funext fun i => by rw [hmix.momentum, mul_zero]
      rw [← hmom]
    rw [hqq, ← hd]
    exact ⟨hmix, hpq⟩
  · intro hsup
    simp only [q', igmGhostCut, hv]
    rw [if_neg (not_lt.2 hsup)]

/-! ## Non-vacuity -/

/-- A gas with `R_s = 4` and `cp = 10` at 300 K with density 2, so with the pressure 2400. -/
noncomputable def isoExample : ReactorState Unit ℝ :=
  { massFractions := fun _ => 1, moles := fun _ => 0, temperature := 300, density := 2, thermoTemp := 300
    enthalpies := (inertGas.thermo 300).1, heatCapacities := (inertGas.thermo 300).2 }

theorem isoExample_facts : Cached inertGas isoExample ∧ isoExample.pressure inertGas = 2400 ∧ mixtureR inertGas isoExample.massFractions = 4 ∧
    ∀ T, mixtureCp inertGas isoExample.massFractions T = 10 := by
  refine ⟨⟨rfl, rfl⟩, ?_, ?_, fun T => ?_⟩
  · simp [ReactorState.pressure, ReactorState.meanMolarMass, isoExample, inertGas]; norm_num
  · simp [mixtureR, isoExample, inertGas]; norm_num
  · simp [mixtureCp, isoExample, inertGas]

/-- The exact solution of the problem of the solver for this gas and a change to half of the pressure: the hypotheses of `isentropic_exact` and
`isentropic_perfect` are met. -/
theorem isoExample_exact : IsoRun.Exact inertGas ⟨[], 300 * (1200 / 2400) ^ (2 / 5 : ℝ), -(5 * Real.sqrt 720) * ((1200 / 2400) ^ (1 / 5 : ℝ) - 1)⟩ 1200 isoExample
    (fun x => 300 * (x / 2400) ^ (2 / 5 : ℝ)) (fun x => -(5 * Real.sqrt 720) * ((x / 2400) ^ (1 / 5 : ℝ) - 1)) := by
  obtain ⟨h1, h2, h3, h4⟩ := isoExample_facts
  refine ⟨?_, ?_, rfl, rfl, fun x hx => ?_⟩
  · rw [h2]; norm_num [isoExample]
  · rw [h2]; norm_num
  · rw [h2] at hx
    have hx0 : 0 < x := lt_of_lt_of_le (by norm_num) hx.1
    have hy : 0 < x / 2400 := by positivity
    have hpow : ∀ a : ℝ, HasDerivAt (fun x : ℝ => (x / 2400) ^ a) (a * (x / 2400) ^ a / x) x := fun a => by
      have := ((hasDerivAt_id x).div_const 2400).rpow_const (p := a) (Or.inl hy.ne')
      refine this.congr_deriv ?_
      simp only [id]
      rw [Real.rpow_sub_one hy.ne']
      field_simp
    have hT : 0 < 300 * (x / 2400) ^ (2 / 5 : ℝ) := by positivity
    rw [odeRhsSetP_eq inertGas isoExample h1 _ x hT hx0 (by rw [h3]; norm_num) (by rw [h3, h4]; norm_num)]
    simp only [h3, h4]
    have e2 : (x / 2400) ^ (2 / 5 : ℝ) = ((x / 2400) ^ (1 / 5 : ℝ)) ^ 2 := by
      rw [← Real.rpow_natCast, ← Real.rpow_mul hy.le]; norm_num
    have hz : 0 < (x / 2400) ^ (1 / 5 : ℝ) := Real.rpow_pos_of_pos hy _
    refine ⟨hT, ?_, ?_⟩
    · refine ((hpow (2 / 5)).const_mul 300).congr_deriv ?_
      rw [e2]
      field_simp
      ring
    · refine (((hpow (1 / 5)).sub_const 1).const_mul (-(5 * Real.sqrt 720))).congr_deriv ?_
      rw [e2]
      generalize (x / 2400) ^ (1 / 5 : ℝ) = z at *
      have e : (10 : ℝ) / (10 - 4) * x / (x / (300 * z ^ 2 * 4)) = (5 / 3 * 1200 / 720) * (720 * z ^ 2) := by field_simp; ring
      have e3 : Real.sqrt ((10 : ℝ) / (10 - 4) * x / (x / (300 * z ^ 2 * 4))) = 5 / 3 * Real.sqrt 720 * z := by
        rw [show (10 : ℝ) / (10 - 4) * x / (x / (300 * z ^ 2 * 4)) = (5 / 3) ^ 2 * 720 * z ^ 2 by field_simp; ring,
          Real.sqrt_mul (by positivity), Real.sqrt_sq hz.le, Real.sqrt_mul (by positivity), Real.sqrt_sq (by norm_num)]
      rw [e3]
      have hs : Real.sqrt 720 * Real.sqrt 720 = 720 := Real.mul_self_sqrt (by norm_num)
      have hs0 : 0 < Real.sqrt 720 := Real.sqrt_pos.2 (by norm_num)
      field_simp
      nlinarith

example : (0 : ℝ) < isoExample.pressure inertGas ∧ 0 < mixtureR inertGas isoExample.massFractions ∧ isoExample.pressure inertGas ≠ 1200 := by
  rw [isoExample_facts.2.1, isoExample_facts.2.2.1]; norm_num

/-- Non-vacuity of `igmExpansion1d_state` and `igmGhostCut_rest`: a subsonic state of this gas. -/
example : IsMixture inertGas 2 (fun _ : Fin 1 => 3) (fun _ => 1) 300 (igmCompleteFromReactor inertGas isoExample (fun _ : Fin 1 => 3)) ∧
    ∑ _i : Fin 1, (3 : ℝ) * 3 < (igmCompleteFromReactor inertGas isoExample (fun _ : Fin 1 => (3 : ℝ))).speedOfSound *
      (igmCompleteFromReactor inertGas isoExample (fun _ : Fin 1 => (3 : ℝ))).speedOfSound := by
  have h := igm_complete_from_reactor inertGas isoExample (fun _ : Fin 1 => (3 : ℝ)) ⟨rfl, rfl⟩ rfl (two_ne_zero : (2 : ℝ) ≠ 0)
  refine ⟨h, ?_⟩
  rw [h.speedOfSound, h.gamma, h.cp, h.pressure, h.density, Real.mul_self_sqrt (by simp [isoExample, inertGas]; norm_num)]
  simp [isoExample, inertGas]
  norm_num

end Fub
