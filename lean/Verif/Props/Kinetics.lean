import Mathlib.Analysis.Complex.ExponentialBounds
import Verif.Model.Kinetics
import Verif.Props.GasMix
import Mathlib.Analysis.SpecialFunctions.Exp
import Mathlib.Analysis.SpecialFunctions.Log.Basic

/-!
# C74, C75: chemical source terms of the gas mixture
-/

namespace Fub
open Finset
variable {d s t : ℕ}

/-- For admissible mass fractions the array version of the kinetic state is the scalar one. -/
theorem kinArray_eq (q : MixComplete d s t) (hr : 0 < q.density) (hf : q.Fractions) :
    kinFromMixArray q = some (kinFromMix q) ∧ ∑ i, (kinFromMix q).fractions i = 1 ∧ (∀ i, 0 ≤ (kinFromMix q).fractions i) ∧
    ∀ i : Fin s, (kinFromMix q).fractions i.castSucc = q.species i / q.density := by
  obtain ⟨hf0, hf1⟩ := hf
  have hsum : ∑ i, q.species i / q.density ≤ 1 := by rw [← Finset.sum_div, div_le_one hr]; exact hf1
  have hone : ∑ i, (kinFromMix q).fractions i = 1 := by rw [kinFromMix_sum, max_eq_right hsum]
  refine ⟨?_, hone, ?_, fun i => by simp only [kinFromMix, Fin.snoc_castSucc]⟩
  · have hcl : (fun i => max (q.species i / q.density) 0) = fun i => q.species i / q.density :=
      funext fun i => max_eq_left (div_nonneg (hf0 i) hr.le)
    have hfr : (kinFromMix q).fractions = Fin.snoc (α := fun _ => ℝ) (fun i => q.species i / q.density) (max (1 - ∑ i, q.species i / q.density) 0) := by
      simp only [kinFromMix, max_comm]
    simp only [kinFromMixArray, hcl, ← hfr, hone, div_one, if_true]
    rfl
  · intro i
    refine Fin.lastCases ?_ (fun i => ?_) i
    · simp only [kinFromMix, Fin.snoc_last]; exact le_max_left _ _
    · simp only [kinFromMix, Fin.snoc_castSucc]; exact div_nonneg (hf0 i) hr.le

/-! ### C74: Arrhenius kinetics -/

/-- Which species a reaction `0 → 1` changes, per unit of the first one. -/
def stoichiometry (i : ℕ) : ℝ := if i = 0 then 1 else if i = 1 then -1 else 0

theorem stoichiometry_sum : ∑ i : Fin (s + 2), stoichiometry i = 0 := by
  rw [Fin.sum_univ_succ, Fin.sum_univ_succ]; simp [stoichiometry]

/-- **C74 (one step).** For every gas, state with admissible mass fractions and time step: the step does not fail; with `δ` the change of the mole fraction of the fuel, the
second species changes by `-δ`, the energy by `-Q ρ δ`, and density, momentum, all other species and the scalars do not change; the result is complete, and it is a
state of the gas unless the cooling took all internal energy. -/
theorem arrhenius_step (o : ArrheniusOptions) (eq : MixEq) (h : eq.Valid) (dt : ℝ) (hdt : 0 < dt) (q : MixComplete d (s + 1) t) (hq : IsMixState eq q) (hf : q.Fractions) :
    let δ := arrheniusChange o dt (q.pressure / q.density) (q.species 0 / q.density)
    ∃ q', arrheniusAdvance o eq dt q = some q' ∧ q'.density = q.density ∧ q'.momentum = q.momentum ∧ q'.scalars = q.scalars ∧
      (∀ i, q'.species i = q.species i + q.density * δ * stoichiometry i) ∧ q'.energy = q.energy - o.Q * q.density * δ ∧
      q'.pressure = q.pressure - (eq.gamma - 1) * (o.Q * q.density * δ) ∧ (0 < q'.pressure → IsMixState eq q') := by
  intro δ
  obtain ⟨g0, g1, g2⟩ := h.pos
  obtain ⟨hr, hp, he, hc, hc2⟩ := hq
  obtain ⟨hk, hone, -, hfr⟩ := kinArray_eq q hr hf
  have hX0 : (kinFromMix q).fractions 0 = q.species 0 / q.density := hfr 0
  have hδ : arrheniusChange o dt (kinFromMix q).temperature ((kinFromMix q).fractions 0) = δ := by rw [hX0]; rfl
  let X := (kinFromMix q).fractions
  let X' := Function.update (Function.update X 0 (X 0 + δ)) 1 (X 1 - δ)
  have h01 : (0 : Fin (s + 1 + 1)) ≠ 1 := by intro h; have := congrArg Fin.val h; simp at this
  have hX' : ∀ i, X' i = X i + δ * stoichiometry i := by
    intro i
    simp only [X', stoichiometry, Function.update_apply]
    by_cases h1 : i = 1
    · subst h1; simp; ring
    · by_cases h0 : i = 0
      · subst h0; simp [h01]
      · have e0 : (i : ℕ) ≠ 0 := fun e => h0 (Fin.ext e)
        have e1 : (i : ℕ) ≠ 1 := fun e => h1 (Fin.ext (by simpa using e))
        simp [h0, h1, e0, e1]
  have hone' : ∑ i, X' i = 1 := by
    have : ∑ i, X' i = ∑ i, X i + δ * ∑ i : Fin (s + 1 + 1), stoichiometry i := by
      rw [mul_sum, ← sum_add_distrib]; exact sum_congr rfl fun i _ => hX' i
    rw [this, hone, Fin.sum_univ_succ, Fin.sum_univ_succ]
    simp [stoichiometry]
  have hmom : (fun i => q.density * (q.momentum i / q.density)) = q.momentum := funext fun i => by field_simp
  let u : MixCons d (s + 1) t := ⟨q.density, q.momentum, q.energy - o.Q * q.density * δ, fun i => q.density * X' i.castSucc / 1, fun i => q.density * (q.scalars i / q.density)⟩
  have hadv : arrheniusAdvance o eq dt q = some (mixCompleteArray eq u) := by
    unfold arrheniusAdvance
    rw [hk]
    simp only
    rw [if_pos ⟨hone, hdt⟩, hδ, if_pos hone']
    congr 2
    have hs : ∑ i, X' i = 1 := hone'
    simp only [mixFromKinArray]
    change MixCons.mk _ _ _ _ _ = _
    simp only [u]
    congr 1
    · simp only [kinFromMix, kinInternalEnergy, mixTemperature, mixVelocity, hmom, gasKinetic_eq, he, h.minusOneInv]
      field_simp
      ring
    · funext i
      change q.density * X' i.castSucc / (∑ i, X' i) = _
      rw [hs]
  have hpr : (mixCompleteArray eq u).pressure = q.pressure - (eq.gamma - 1) * (o.Q * q.density * δ) := by
    simp only [mixCompleteArray, u, gasKinetic_eq, he, h.minusOne]
    field_simp
    ring
  refine ⟨_, hadv, rfl, rfl, ?_, ?_, rfl, hpr, fun hp' => ?_⟩
  · funext i; change q.density * (q.scalars i / q.density) = _; field_simp
  · intro i
    change q.density * X' i.castSucc / 1 = _
    rw [hX', show X i.castSucc = q.species i / q.density from hfr i]
    simp only [Fin.val_castSucc]
    field_simp
  · obtain ⟨c1, c2⟩ := sqrt_sound g0 hp' hr
    refine ⟨hr, hp', ?_, ?_, ?_⟩
    · rw [hpr]
      simp only [mixCompleteArray, u, he]
      field_simp
      ring
    · change 0 < Real.sqrt (eq.gammaArray * _ / q.density)
      rw [h.arr]; exact c1
    · change Real.sqrt (eq.gammaArray * _ / q.density) ^ 2 * q.density = _
      rw [h.arr]; exact c2

/-- **C74 (conservation).** Energy plus the heat that is still bound in the fuel is conserved, and so are mass, momentum and the sum of fuel and product. -/
theorem arrhenius_conserves (o : ArrheniusOptions) (eq : MixEq) (h : eq.Valid) (dt : ℝ) (hdt : 0 < dt) (q : MixComplete d (s + 2) t) (hq : IsMixState eq q) (hf : q.Fractions) :
    ∃ q', arrheniusAdvance o eq dt q = some q' ∧ q'.density = q.density ∧ q'.momentum = q.momentum ∧ q'.scalars = q.scalars ∧
      q'.energy + o.Q * q'.species 0 = q.energy + o.Q * q.species 0 ∧ q'.species 0 + q'.species 1 = q.species 0 + q.species 1 ∧
      ∀ i : Fin (s + 2), 2 ≤ (i : ℕ) → q'.species i = q.species i := by
  obtain ⟨q', h1, h2, h3, h4, h5, h6, -⟩ := arrhenius_step o eq h dt hdt q hq hf
  refine ⟨q', h1, h2, h3, h4, ?_, ?_, fun i hi => ?_⟩
  · rw [h6, h5]; simp only [stoichiometry, Fin.val_zero, if_true]; ring
  · rw [h5, h5]; simp [stoichiometry]; ring
  · rw [h5]; simp [stoichiometry, show (i : ℕ) ≠ 0 by omega, show (i : ℕ) ≠ 1 by omega]

/-- **C74 (reaction).** Above the switch temperature and for a fuel fraction of at least `1e-5` the fuel decays with the Arrhenius rate at the old temperature, the mass fractions stay
admissible, the gas gets hotter and stays a gas. -/
theorem arrhenius_burns (o : ArrheniusOptions) (eq : MixEq) (h : eq.Valid) (dt : ℝ) (hdt : 0 < dt) (q : MixComplete d (s + 1) t) (hq : IsMixState eq q) (hf : q.Fractions)
    (hQ : 0 ≤ o.Q) (hB : 0 ≤ o.B) (hT : o.Tswitch ≤ q.pressure / q.density) (hY : 1 / 100000 ≤ q.species 0 / q.density) :
    ∃ q', arrheniusAdvance o eq dt q = some q' ∧ q'.species 0 = q.species 0 * Real.exp (-o.B * dt * Real.exp (o.EA * (1 - 1 / (q.pressure / q.density)))) ∧
      q'.species 0 ≤ q.species 0 ∧ q'.Fractions ∧ IsMixState eq q' ∧ q.pressure / q.density ≤ q'.pressure / q'.density := by
  obtain ⟨g0, g1, g2⟩ := h.pos
  obtain ⟨q', h1, h2, h3, h4, h5, h6, h7, h8⟩ := arrhenius_step o eq h dt hdt q hq hf
  have hr := hq.density_pos
  have hp := hq.pressure_pos
  have hδ : arrheniusChange o dt (q.pressure / q.density) (q.species 0 / q.density) =
      q.species 0 / q.density * Real.exp (-o.B * dt * Real.exp (o.EA * (1 - 1 / (q.pressure / q.density)))) - q.species 0 / q.density := by
    simp only [arrheniusChange]; rw [if_pos hT, if_pos hY]
  have hs0 := hf.1 0
  have he1 : Real.exp (-o.B * dt * Real.exp (o.EA * (1 - 1 / (q.pressure / q.density)))) ≤ 1 := by
    rw [Real.exp_le_one_iff]
    have : 0 ≤ o.B * dt * Real.exp (o.EA * (1 - 1 / (q.pressure / q.density))) := by positivity
    linarith
  have he0 := Real.exp_pos (-o.B * dt * Real.exp (o.EA * (1 - 1 / (q.pressure / q.density))))
  rw [hδ] at h5 h7
  generalize Real.exp (-o.B * dt * Real.exp (o.EA * (1 - 1 / (q.pressure / q.density)))) = e at *
  have e0 : q'.species 0 = q.species 0 * e := by
    rw [h5]; simp only [stoichiometry, Fin.val_zero, if_true]; field_simp; ring
  have hred : q.density * (q.species 0 / q.density * e - q.species 0 / q.density) = -(q.species 0 * (1 - e)) := by field_simp; ring
  have hburn : 0 ≤ q.species 0 * (1 - e) := mul_nonneg hs0 (by linarith)
  rw [mul_assoc o.Q, hred] at h7
  have hp' : q.pressure ≤ q'.pressure := by
    rw [h7]
    have : 0 ≤ (eq.gamma - 1) * (o.Q * (q.species 0 * (1 - e))) := by positivity
    linarith
  refine ⟨q', h1, e0, ?_, ⟨fun i => ?_, ?_⟩, h8 (by linarith), ?_⟩
  · rw [e0]; nlinarith
  · rw [h5, hred]
    have := hf.1 i
    unfold stoichiometry
    split_ifs with i0 i1
    · have : i = 0 := Fin.ext i0
      subst this; nlinarith
    · linarith
    · linarith
  · have e1 : ∑ i, q'.species i = ∑ i, q.species i - q.species 0 * (1 - e) * ∑ i : Fin (s + 1), stoichiometry i := by
      rw [mul_sum, ← sum_sub_distrib]
      exact sum_congr rfl fun i _ => by rw [h5, hred]; ring
    have e2 : 0 ≤ ∑ i : Fin (s + 1), stoichiometry i := by
      cases s with
      | zero => simp [stoichiometry]
      | succ s => rw [Fin.sum_univ_succ, Fin.sum_univ_succ]; simp [stoichiometry]
    rw [e1, h2]
    have := mul_nonneg hburn e2
    linarith [hf.2]
  · rw [h2]; gcongr

/-- **C74 is false below the switch temperature.** For every cold state each step turns `2 ^ (-26)` of product into fuel and cools the gas. -/
theorem arrhenius_cold (o : ArrheniusOptions) (eq : MixEq) (h : eq.Valid) (dt : ℝ) (hdt : 0 < dt) (q : MixComplete d (s + 1) t) (hq : IsMixState eq q) (hf : q.Fractions)
    (hT : q.pressure / q.density < o.Tswitch) :
    ∃ q', arrheniusAdvance o eq dt q = some q' ∧ q'.density = q.density ∧ (∀ i, q'.species i = q.species i + q.density * kinEps * stoichiometry i) ∧
      q'.pressure = q.pressure - (eq.gamma - 1) * (o.Q * q.density * kinEps) ∧ (0 < q'.pressure → IsMixState eq q') := by
  obtain ⟨q', h1, h2, h3, h4, h5, h6, h7, h8⟩ := arrhenius_step o eq h dt hdt q hq hf
  have hδ : arrheniusChange o dt (q.pressure / q.density) (q.species 0 / q.density) = kinEps := by
    simp only [arrheniusChange]; rw [if_neg (not_le.2 hT)]
  rw [hδ] at h5 h7
  exact ⟨q', h1, h2, h5, h7, h8⟩

/-- **C74 is false below the switch temperature (history).** After any number of steps of any sizes the fuel has grown by the number of steps times `2 ^ (-26)`, as long as there is product and
internal energy to take it from. -/
theorem arrhenius_cold_drift (o : ArrheniusOptions) (eq : MixEq) (h : eq.Valid) (hQ : 0 ≤ o.Q) (dts : List ℝ) (hdt : ∀ dt ∈ dts, 0 < dt) (q : MixComplete d (s + 2) t)
    (hq : IsMixState eq q) (hf : q.Fractions) (hT : q.pressure / q.density < o.Tswitch) (hprod : dts.length * kinEps * q.density ≤ q.species 1)
    (hheat : dts.length * ((eq.gamma - 1) * (o.Q * q.density * kinEps)) < q.pressure) :
    ∃ q', arrheniusSteps o eq dts q = some q' ∧ IsMixState eq q' ∧ q'.species 0 = q.species 0 + dts.length * kinEps * q.density ∧
      q'.pressure = q.pressure - dts.length * ((eq.gamma - 1) * (o.Q * q.density * kinEps)) := by
  induction dts generalizing q with
  | nil => exact ⟨q, rfl, hq, by simp, by simp⟩
  | cons dt dts ih =>
    obtain ⟨g0, g1, g2⟩ := h.pos
    have hr := hq.density_pos
    have hk : 0 < kinEps := by unfold kinEps; positivity
    obtain ⟨q', h1, h2, h5, h7, h8⟩ := arrhenius_cold o eq h dt (hdt dt (by simp)) q hq hf hT
    have hcool : 0 ≤ (eq.gamma - 1) * (o.Q * q.density * kinEps) := by positivity
    simp only [List.length_cons, Nat.cast_add, Nat.cast_one] at hprod hheat ⊢
    have hn : (0 : ℝ) ≤ dts.length := Nat.cast_nonneg _
    have hp' : 0 < q'.pressure := by rw [h7]; nlinarith
    have hn2 : 0 ≤ dts.length * kinEps * q.density := by positivity
    have s0 : q'.species 0 = q.species 0 + q.density * kinEps := by rw [h5]; simp [stoichiometry]
    have s1 : q'.species 1 = q.species 1 - q.density * kinEps := by rw [h5]; simp [stoichiometry]; ring
    have hf' : q'.Fractions := by
      refine ⟨fun i => ?_, ?_⟩
      · rw [h5]
        have := hf.1 i
        unfold stoichiometry
        have hke : 0 ≤ q.density * kinEps := by positivity
        split_ifs with i0 i1
        · linarith
        · have : i = 1 := Fin.ext (by simpa using i1)
          subst this; nlinarith
        · linarith
      · have e1 : ∑ i, q'.species i = ∑ i, q.species i + q.density * kinEps * ∑ i : Fin (s + 2), stoichiometry i := by
          rw [mul_sum, ← sum_add_distrib]; exact sum_congr rfl fun i _ => h5 i
        rw [e1, h2, stoichiometry_sum, mul_zero, add_zero]
        exact hf.2
    have hT' : q'.pressure / q'.density < o.Tswitch := by
      refine lt_of_le_of_lt ?_ hT
      rw [h2]; gcongr; linarith
    obtain ⟨q'', e1, e2, e3, e4⟩ := ih (fun dt' hd => hdt dt' (by simp [hd])) q' (h8 hp') hf' hT' (by rw [s1, h2]; nlinarith) (by rw [h7, h2]; nlinarith)
    refine ⟨q'', ?_, e2, ?_, ?_⟩
    · rw [arrheniusSteps, h1]; exact e1
    · rw [e3, s0, h2]; ring
    · rw [e4, h7, h2]; ring

/-- **C74 is false below the switch temperature (positivity).** A cold state without product gets a negative partial density. -/
theorem arrhenius_negative (o : ArrheniusOptions) (eq : MixEq) (h : eq.Valid) (dt : ℝ) (hdt : 0 < dt) (q : MixComplete d (s + 2) t) (hq : IsMixState eq q) (hf : q.Fractions)
    (hT : q.pressure / q.density < o.Tswitch) (h1 : q.species 1 = 0) : ∃ q', arrheniusAdvance o eq dt q = some q' ∧ q'.species 1 < 0 := by
  obtain ⟨q', e1, -, e2, -⟩ := arrhenius_cold o eq h dt hdt q hq hf hT
  refine ⟨q', e1, ?_⟩
  have hk : 0 < kinEps := by unfold kinEps; positivity
  have := mul_pos hq.density_pos hk
  rw [e2, h1]; simp [stoichiometry]; exact this

/-- **C74 is false for nearly burnt gas.** Above the switch temperature a fuel fraction below `1e-5` is set to `2 ^ (-26)`, so fuel appears where there was none. -/
theorem arrhenius_lean (o : ArrheniusOptions) (eq : MixEq) (h : eq.Valid) (dt : ℝ) (hdt : 0 < dt) (q : MixComplete d (s + 1) t) (hq : IsMixState eq q) (hf : q.Fractions)
    (hT : o.Tswitch ≤ q.pressure / q.density) (hY : q.species 0 / q.density < 1 / 100000) :
    ∃ q', arrheniusAdvance o eq dt q = some q' ∧ q'.species 0 = q.density * kinEps := by
  obtain ⟨q', h1, h2, h3, h4, h5, -⟩ := arrhenius_step o eq h dt hdt q hq hf
  have hr := hq.density_pos
  have hδ : arrheniusChange o dt (q.pressure / q.density) (q.species 0 / q.density) = kinEps - q.species 0 / q.density := by
    simp only [arrheniusChange]; rw [if_pos hT, if_neg (not_le.2 hY)]
  refine ⟨q', h1, ?_⟩
  rw [h5, hδ]; simp only [stoichiometry, Fin.val_zero, if_true]; field_simp; ring

/-- A hot gas with fuel, which burns, and a cold one, which should not react. -/
noncomputable def exKin (p y0 y1 : ℝ) : MixComplete 1 2 1 := mixFromPrim (computeConstants 287 (7 / 5)) ⟨2, ![1, 3], p, ![y0, y1], fun _ => 1⟩

theorem exKin_state (p y0 y1 : ℝ) (hp : 0 < p) (h0 : 0 ≤ y0) (h1 : 0 ≤ y1) (h : y0 + y1 ≤ 1) :
    IsMixState (computeConstants 287 (7 / 5)) (exKin p y0 y1) ∧ (exKin p y0 y1).Fractions := by
  refine ⟨(mix_prim_roundtrip _ (computeConstants_valid 287 (7 / 5) (by norm_num) (by norm_num)).1 _ (by norm_num) hp).1, fun i => ?_, ?_⟩
  · fin_cases i <;> simp [exKin, mixFromPrim] <;> assumption
  · simp [exKin, mixFromPrim, Fin.sum_univ_two]; linarith

example : ∃ q', arrheniusAdvance ⟨15 / 2, 10, 1, 21 / 20⟩ (computeConstants 287 (7 / 5)) 1 (exKin 4 (1 / 2) (1 / 4)) = some q' ∧
    q'.species 0 = 1 * Real.exp (-1 * 1 * Real.exp (10 * (1 - 1 / (4 / 2)))) ∧ IsMixState (computeConstants 287 (7 / 5)) q' := by
  obtain ⟨hs, hf⟩ := exKin_state 4 (1 / 2) (1 / 4) (by norm_num) (by norm_num) (by norm_num) (by norm_num)
  obtain ⟨q', h1, h2, -, -, h3, -⟩ := arrhenius_burns ⟨15 / 2, 10, 1, 21 / 20⟩ _ (computeConstants_valid 287 (7 / 5) (by norm_num) (by norm_num)).1 1 (by norm_num)
    (exKin 4 (1 / 2) (1 / 4)) hs hf (by norm_num) (by norm_num) (by norm_num [exKin, mixFromPrim]) (by norm_num [exKin, mixFromPrim])
  refine ⟨q', h1, ?_, h3⟩
  rw [h2]; norm_num [exKin, mixFromPrim]

example : ∃ q', arrheniusSteps ⟨15 / 2, 10, 1, 21 / 20⟩ (computeConstants 287 (7 / 5)) [1, 2, 3] (exKin 2 0 (1 / 4)) = some q' ∧ q'.species 0 = 3 / 2 ^ 25 := by
  obtain ⟨hs, hf⟩ := exKin_state 2 0 (1 / 4) (by norm_num) (by norm_num) (by norm_num) (by norm_num)
  obtain ⟨q', h1, -, h2, -⟩ := arrhenius_cold_drift ⟨15 / 2, 10, 1, 21 / 20⟩ _ (computeConstants_valid 287 (7 / 5) (by norm_num) (by norm_num)).1 (by norm_num) [1, 2, 3]
    (by intro dt h; simp at h; rcases h with rfl | rfl | rfl <;> norm_num) (exKin 2 0 (1 / 4)) hs hf (by norm_num [exKin, mixFromPrim]) (by norm_num [exKin, mixFromPrim, kinEps])
    (by norm_num [exKin, mixFromPrim, kinEps, computeConstants])
  refine ⟨q', h1, ?_⟩
  rw [h2]; norm_num [exKin, mixFromPrim, kinEps]

example : ∃ q', arrheniusAdvance ⟨15 / 2, 10, 1, 21 / 20⟩ (computeConstants 287 (7 / 5)) 1 (exKin 2 (1 / 2) 0) = some q' ∧ q'.species 1 < 0 := by
  obtain ⟨hs, hf⟩ := exKin_state 2 (1 / 2) 0 (by norm_num) (by norm_num) (by norm_num) (by norm_num)
  exact arrhenius_negative _ _ (computeConstants_valid 287 (7 / 5) (by norm_num) (by norm_num)).1 1 (by norm_num) _ hs hf (by norm_num [exKin, mixFromPrim]) (by simp [exKin, mixFromPrim])

/-! ### C75: ignition delay kinetics -/

/-- The mole fractions after a step of the ignition delay kinetics with the fractions of the two reactions that take place: `a` of the fuel becomes radicals,
then `c` of fuel and radicals becomes product. -/
def ignitionFractions (a c X0 X1 X2 : ℝ) (i : ℕ) (X : ℝ) : ℝ :=
  if i = 0 then (1 - c) * ((1 - a) * X0) else if i = 1 then (1 - c) * (X1 + a * X0) else if i = 2 then X2 + c * (X0 + X1) else X

/-- **C75 (one step).** For every gas, state with admissible mass fractions, time step and rate that is not negative: the step does not fail; with `a = 1 - exp (-rate dt)` and `c` the
part that burns, the fractions are as above, density, momentum and scalars do not change, and the temperature grows by `Tdiff` times the product that appeared. -/
theorem ignition_step (o : IgnitionOptions) (eq : MixEq) (h : eq.Valid) (dt : ℝ) (hdt : 0 < dt) (q : MixComplete d (s + 2) t) (hq : IsMixState eq q) (hf : q.Fractions)
    (hrate : 0 ≤ ignitionRate o (q.pressure / q.density)) (hT : 0 ≤ o.Tdiff) :
    let X := (kinFromMix q).fractions
    let a := 1 - Real.exp (-ignitionRate o (q.pressure / q.density) * dt)
    let c := if (1 - a) * X 0 ≤ o.Yign * (1 - X 2) then 1 - Real.exp (-Real.exp (o.C * (1 - o.E / (q.pressure / q.density))) * dt) else 0
    ∃ q', ignitionAdvance o eq dt q = some q' ∧ q'.density = q.density ∧ q'.momentum = q.momentum ∧ q'.scalars = q.scalars ∧ IsMixState eq q' ∧ q'.Fractions ∧
      (∀ i, (kinFromMix q').fractions i = ignitionFractions a c (X 0) (X 1) (X 2) i (X i)) ∧
      q'.pressure / q'.density = q.pressure / q.density + o.Tdiff * ((kinFromMix q').fractions 2 - X 2) := by
  intro X a c
  obtain ⟨g0, g1, g2⟩ := h.pos
  obtain ⟨hr, hp, he, hc, hc2⟩ := hq
  obtain ⟨hk, hone, hpos, hfr⟩ := kinArray_eq q hr hf
  have hx0 := hpos 0
  have hx1 := hpos 1
  have hx2 := hpos 2
  change 0 ≤ X 0 at hx0
  change 0 ≤ X 1 at hx1
  change 0 ≤ X 2 at hx2
  have n01 : (0 : Fin (s + 2 + 1)) ≠ 1 := by intro h; have := congrArg Fin.val h; simp at this
  have v2 : ((2 : Fin (s + 2 + 1)) : ℕ) = 2 := by
    change 2 % (s + 2 + 1) = 2; exact Nat.mod_eq_of_lt (by omega)
  have n02 : (0 : Fin (s + 2 + 1)) ≠ 2 := by intro h; have := congrArg Fin.val h; rw [v2] at this; simp at this
  have n12 : (1 : Fin (s + 2 + 1)) ≠ 2 := by intro h; have := congrArg Fin.val h; rw [v2] at this; simp at this
  have s2 : (2 : Fin (s + 2 + 1)) = Fin.succ (Fin.succ 0) := Fin.ext (by rw [v2]; rfl)
  have s1 : (1 : Fin (s + 2 + 1)) = Fin.succ 0 := Fin.ext (by simp)
  have hsum3 : ∀ Z : Fin (s + 2 + 1) → ℝ, ∑ i, Z i = Z 0 + (Z 1 + (Z 2 + ∑ i : Fin s, Z i.succ.succ.succ)) := by
    intro Z; rw [Fin.sum_univ_succ, Fin.sum_univ_succ, Fin.sum_univ_succ, s2, s1]
  have hrest : 0 ≤ ∑ i : Fin s, X i.succ.succ.succ := sum_nonneg fun i _ => hpos _
  have hle : X 0 + X 1 + X 2 ≤ 1 := by have := hsum3 X; rw [hone] at this; linarith
  have ha0 : 0 ≤ a := by
    have : Real.exp (-ignitionRate o (q.pressure / q.density) * dt) ≤ 1 := by
      rw [Real.exp_le_one_iff]; have := mul_nonneg hrate hdt.le; linarith
    simp only [a]; linarith
  have ha1 : a ≤ 1 := by have := Real.exp_pos (-ignitionRate o (q.pressure / q.density) * dt); simp only [a]; linarith
  have hc0 : 0 ≤ c ∧ c ≤ 1 := by
    simp only [c]
    split_ifs
    · have h1 : Real.exp (-Real.exp (o.C * (1 - o.E / (q.pressure / q.density))) * dt) ≤ 1 := by
        rw [Real.exp_le_one_iff]; have := mul_nonneg (Real.exp_pos (o.C * (1 - o.E / (q.pressure / q.density)))).le hdt.le; linarith
      have h2 := Real.exp_pos (-Real.exp (o.C * (1 - o.E / (q.pressure / q.density))) * dt)
      constructor <;> linarith
    · exact ⟨le_rfl, zero_le_one⟩
  have hclamp : ∀ x : ℝ, 0 ≤ x → x ≤ 1 → min (max x 0) 1 = x := fun x h0 h1 => by rw [max_eq_left h0, min_eq_left h1]
  have hax : 0 ≤ a * X 0 ∧ a * X 0 ≤ X 0 := ⟨mul_nonneg ha0 hx0, by nlinarith⟩
  have k1 : min (max (X 1 + a * X 0) 0) 1 = X 1 + a * X 0 := hclamp _ (by linarith) (by linarith)
  have m1 : 0 ≤ c * (X 1 + a * X 0) ∧ c * (X 1 + a * X 0) ≤ X 1 + a * X 0 := ⟨mul_nonneg hc0.1 (by linarith), by nlinarith [hc0.2]⟩
  have m0 : 0 ≤ c * (X 0 - a * X 0) ∧ c * (X 0 - a * X 0) ≤ X 0 - a * X 0 := ⟨mul_nonneg hc0.1 (by linarith), by nlinarith [hc0.2]⟩
  have k2 : min (max (X 2 + c * (X 1 + a * X 0)) 0) 1 = X 2 + c * (X 1 + a * X 0) := hclamp _ (by linarith) (by linarith)
  have k3 : min (max (X 2 + c * (X 1 + a * X 0) + c * (X 0 - a * X 0)) 0) 1 = X 2 + c * (X 1 + a * X 0) + c * (X 0 - a * X 0) :=
    hclamp _ (by linarith) (by linarith)
  let X' := Function.update (Function.update (Function.update X 0 (X 0 - a * X 0 - c * (X 0 - a * X 0))) 1 (X 1 + a * X 0 - c * (X 1 + a * X 0))) 2
    (X 2 + c * (X 1 + a * X 0) + c * (X 0 - a * X 0))
  have hX' : ∀ i, X' i = ignitionFractions a c (X 0) (X 1) (X 2) i (X i) := by
    intro i
    simp only [X', ignitionFractions, Function.update_apply]
    by_cases i2 : i = 2
    · subst i2; rw [if_pos rfl, v2]; norm_num; ring
    · rw [if_neg i2]
      have e2 : (i : ℕ) ≠ 2 := fun e => i2 (Fin.ext (by rw [v2]; exact e))
      by_cases i1 : i = 1
      · subst i1; simp; ring
      · have e1 : (i : ℕ) ≠ 1 := fun e => i1 (Fin.ext (by simpa using e))
        by_cases i0 : i = 0
        · subst i0; simp [n01]; ring
        · have e0 : (i : ℕ) ≠ 0 := fun e => i0 (Fin.ext e)
          simp [i0, i1, e0, e1, e2]
  have x'0 : X' 0 = (1 - c) * ((1 - a) * X 0) := by rw [hX']; simp [ignitionFractions]
  have x'1 : X' 1 = (1 - c) * (X 1 + a * X 0) := by rw [hX']; simp [ignitionFractions]
  have x'2 : X' 2 = X 2 + c * (X 0 + X 1) := by rw [hX']; simp only [ignitionFractions, v2]; norm_num
  have x's : ∀ i : Fin s, X' i.succ.succ.succ = X i.succ.succ.succ := by
    intro i; rw [hX']; simp only [ignitionFractions, Fin.val_succ]
    rw [if_neg (by omega), if_neg (by omega), if_neg (by omega)]
  have hone' : ∑ i, X' i = 1 := by
    rw [hsum3, x'0, x'1, x'2, sum_congr rfl fun i _ => x's i]
    have := hsum3 X
    rw [hone] at this
    linear_combination -this
  have hpos' : ∀ i, 0 ≤ X' i := by
    intro i
    rw [hX']
    unfold ignitionFractions
    have : 0 ≤ 1 - c := by linarith [hc0.2]
    have : 0 ≤ 1 - a := by linarith
    have := hpos i
    change 0 ≤ X i at this
    split_ifs
    · positivity
    · exact mul_nonneg ‹_› (by linarith)
    · have := mul_nonneg hc0.1 (add_nonneg hx0 hx1); linarith
    · exact this
  have hmom : (fun i => q.density * (q.momentum i / q.density)) = q.momentum := funext fun i => by field_simp
  let T' := q.pressure / q.density + o.Tdiff * (c * (X 0 - a * X 0) + c * (X 1 + a * X 0))
  let kin' : MixKin (s + 2) t := { kinFromMix q with fractions := X', temperature := T' }
  have hT' : 0 < T' := by
    have h1 : 0 < q.pressure / q.density := div_pos hp hr
    have h2 : 0 ≤ o.Tdiff * (c * (X 0 - a * X 0) + c * (X 1 + a * X 0)) := mul_nonneg hT (by linarith [m0.1, m1.1])
    simp only [T']; linarith
  have hadv : ignitionAdvance o eq dt q = some (mixFromKinArray eq kin' (mixVelocity q.toMixCons)) := by
    unfold ignitionAdvance
    rw [hk]
    simp only
    rw [if_pos ⟨hone, hdt⟩]
    have ef : (1 - Real.exp (-ignitionRate o (kinFromMix q).temperature * dt)) * (kinFromMix q).fractions 0 = a * X 0 := rfl
    rw [ef]
    have ec : (if (kinFromMix q).fractions 0 - a * X 0 ≤ o.Yign * (1 - (kinFromMix q).fractions 2) then
        1 - Real.exp (-Real.exp (o.C * (1 - o.E / (kinFromMix q).temperature)) * dt) else 0) = c := by
      have : X 0 - a * X 0 = (1 - a) * X 0 := by ring
      change (if X 0 - a * X 0 ≤ o.Yign * (1 - X 2) then _ else _) = _
      rw [this]; rfl
    rw [ec, if_pos hc0]
    change (if ∑ i, Function.update (Function.update (Function.update X 0 (X 0 - a * X 0 - c * (X 0 - a * X 0))) 1
      (min (max (X 1 + a * X 0) 0) 1 - c * min (max (X 1 + a * X 0) 0) 1)) 2
      (min (max (min (max (X 2 + c * min (max (X 1 + a * X 0) 0) 1) 0) 1 + c * (X 0 - a * X 0)) 0) 1) i = 1 then _ else none) = _
    simp only [k1, k2, k3]
    rw [if_pos hone']
    congr 2
    change MixKin.mk _ _ _ _ = MixKin.mk _ _ _ _
    have e1 : min (max (X 1 + a * X 0) 0) 1 = X 1 + a * X 0 := k1
    congr 1
    · change q.pressure / q.density + o.Tdiff * (c * (X 0 - a * X 0) + c * min (max (X 1 + a * X 0) 0) 1) = _
      rw [k1]
    · change Function.update (Function.update (Function.update X 0 (X 0 - a * X 0 - c * (X 0 - a * X 0))) 1
        (min (max (X 1 + a * X 0) 0) 1 - c * min (max (X 1 + a * X 0) 0) 1)) 2
        (min (max (min (max (X 2 + c * min (max (X 1 + a * X 0) 0) 1) 0) 1 + c * (X 0 - a * X 0)) 0) 1) = X'
      rw [k1, k2, k3]
  have hmix := (mixFromKin_mach eq h kin' hr hT' (mixVelocity q.toMixCons)).2.1
  have hsp : ∀ i : Fin (s + 2), (mixFromKinArray eq kin' (mixVelocity q.toMixCons)).species i = q.density * X' i.castSucc := by
    intro i
    change q.density * X' i.castSucc / (∑ i, X' i) = _
    rw [hone', div_one]
  have hff : (mixFromKinArray eq kin' (mixVelocity q.toMixCons)).Fractions := by
    refine ⟨fun i => by rw [hsp]; exact mul_nonneg hr.le (hpos' _), ?_⟩
    change _ ≤ q.density
    rw [sum_congr rfl fun i _ => hsp i, ← mul_sum]
    have := hone'
    rw [Fin.sum_univ_castSucc] at this
    have := hpos' (Fin.last _)
    nlinarith
  have hback : ∀ i, (kinFromMix (mixFromKinArray eq kin' (mixVelocity q.toMixCons))).fractions i = X' i := by
    have hd : (mixFromKinArray eq kin' (mixVelocity q.toMixCons)).density = q.density := rfl
    have hcs : ∀ i : Fin (s + 2), (mixFromKinArray eq kin' (mixVelocity q.toMixCons)).species i / q.density = X' i.castSucc := by
      intro i; rw [hsp]; field_simp
    intro i
    refine Fin.lastCases ?_ (fun i => ?_) i
    · simp only [kinFromMix, Fin.snoc_last]
      rw [hd, sum_congr rfl fun i _ => hcs i]
      have := hone'
      rw [Fin.sum_univ_castSucc] at this
      rw [max_eq_right (by have := hpos' (Fin.last _); linarith)]
      linarith
    · simp only [kinFromMix, Fin.snoc_castSucc]
      rw [hd, hcs]
  refine ⟨_, hadv, rfl, ?_, ?_, hmix, hff, fun i => ?_, ?_⟩
  · change (fun i => q.density * (q.momentum i / q.density)) = _; exact hmom
  · funext i; change q.density * (q.scalars i / q.density) = _; field_simp
  · rw [hback, hX']
  · rw [hback, x'2]
    change T' * q.density / q.density = _
    rw [mul_div_assoc, div_self hr.ne', mul_one]
    simp only [T']; ring

/-- The rate is at least `log (Yinit tau / Yign)`; it is not negative if `tau` is at least `Yign / Yinit`. -/
theorem ignitionRate_ge (o : IgnitionOptions) (T : ℝ) (hT : 0 < T) (hA : 0 ≤ o.R2A) (h1 : 0 < o.Yign) (h2 : 0 < o.Yinit) (h3 : 0 < o.tau) :
    Real.log (o.Yinit * o.tau / o.Yign) ≤ ignitionRate o T := by
  have e : -Real.log (o.Yign / o.Yinit / o.tau) = Real.log (o.Yinit * o.tau / o.Yign) := by
    rw [← Real.log_inv]; congr 1; field_simp
  have := mul_nonneg (Real.rpow_nonneg hT.le o.RB) (Real.exp_pos (o.RC * (1 - o.RE / T))).le
  have := mul_nonneg hA (Real.exp_pos (o.R2C * (1 - o.R2E / T))).le
  unfold ignitionRate
  rw [e]; linarith

/-- **C75 (conservation).** Energy plus the heat bound in fuel and radicals is conserved, and so are mass, momentum and the sum of the three species; no species becomes negative, the
fuel does not grow, and nothing burns while the fuel that is left is above the ignition limit. -/
theorem ignition_conserves (o : IgnitionOptions) (eq : MixEq) (h : eq.Valid) (dt : ℝ) (hdt : 0 < dt) (q : MixComplete d (s + 2) t) (hq : IsMixState eq q) (hf : q.Fractions)
    (hA : 0 ≤ o.R2A) (h1 : 0 < o.Yign) (h2 : 0 < o.Yinit) (h3 : o.Yign / o.Yinit ≤ o.tau) (hT : 0 ≤ o.Tdiff) :
    let X := (kinFromMix q).fractions
    ∃ q', ignitionAdvance o eq dt q = some q' ∧ q'.density = q.density ∧ q'.momentum = q.momentum ∧ q'.scalars = q.scalars ∧ IsMixState eq q' ∧ q'.Fractions ∧
      q'.energy + o.Tdiff / (eq.gamma - 1) * (q'.species 0 + q'.species 1) = q.energy + o.Tdiff / (eq.gamma - 1) * (q.species 0 + q.species 1) ∧
      q'.species 0 ≤ q.species 0 * (o.Yign / (o.Yinit * o.tau)) ^ dt ∧ q'.species 0 ≤ q.species 0 ∧
      (∀ i : Fin (s + 2), 3 ≤ (i : ℕ) → q'.species i = q.species i) ∧
      (o.Yign * (q.density - q.density * X 2) < q'.species 0 → q'.pressure = q.pressure) := by
  intro X
  obtain ⟨g0, g1, g2⟩ := h.pos
  have hr := hq.density_pos
  have hT0 : 0 < q.pressure / q.density := div_pos hq.pressure_pos hr
  have htau : 0 < o.tau := lt_of_lt_of_le (div_pos h1 h2) h3
  have hge := ignitionRate_ge o _ hT0 hA h1 h2 htau
  have hone : 1 ≤ o.Yinit * o.tau / o.Yign := by
    rw [le_div_iff₀ h1, one_mul]; rw [div_le_iff₀ h2] at h3; linarith
  have hl0 : 0 ≤ Real.log (o.Yinit * o.tau / o.Yign) := Real.log_nonneg hone
  obtain ⟨q', e1, e2, e3, e4, e5, e6, e7, e8⟩ := ignition_step o eq h dt hdt q hq hf (le_trans hl0 hge) hT
  obtain ⟨-, hsum, hpos, hfr⟩ := kinArray_eq q hr hf
  obtain ⟨-, hsum', hpos', hfr'⟩ := kinArray_eq q' e5.density_pos e6
  have sp : ∀ i : Fin (s + 2), q.species i = q.density * X i.castSucc := fun i => by rw [show X i.castSucc = _ from hfr i]; field_simp
  have sp' : ∀ i : Fin (s + 2), q'.species i = q.density * (kinFromMix q').fractions i.castSucc := fun i => by
    rw [hfr' i, e2]; field_simp
  have v2 : ((2 : Fin (s + 2 + 1)) : ℕ) = 2 := by change 2 % (s + 2 + 1) = 2; exact Nat.mod_eq_of_lt (by omega)
  let a := 1 - Real.exp (-ignitionRate o (q.pressure / q.density) * dt)
  let c := if (1 - a) * X 0 ≤ o.Yign * (1 - X 2) then 1 - Real.exp (-Real.exp (o.C * (1 - o.E / (q.pressure / q.density))) * dt) else 0
  have f0 : (kinFromMix q').fractions 0 = (1 - c) * ((1 - a) * X 0) := by rw [e7]; simp only [ignitionFractions, Fin.val_zero, if_true]; rfl
  have f1 : (kinFromMix q').fractions 1 = (1 - c) * (X 1 + a * X 0) := by rw [e7]; simp only [ignitionFractions, Fin.val_one, one_ne_zero, if_false, if_true]; rfl
  have f2 : (kinFromMix q').fractions 2 = X 2 + c * (X 0 + X 1) := by
    rw [e7]; unfold ignitionFractions; rw [if_neg (by omega), if_neg (by omega), if_pos v2]
  have c0 : (0 : Fin (s + 2)).castSucc = 0 := rfl
  have c1 : (1 : Fin (s + 2)).castSucc = 1 := rfl
  have hx0 : 0 ≤ X 0 := hpos 0
  have hc : 0 ≤ c ∧ c ≤ 1 := by
    simp only [c]
    split_ifs
    · have h1 : Real.exp (-Real.exp (o.C * (1 - o.E / (q.pressure / q.density))) * dt) ≤ 1 := by
        rw [Real.exp_le_one_iff]; have := mul_nonneg (Real.exp_pos (o.C * (1 - o.E / (q.pressure / q.density)))).le hdt.le; linarith
      have h2 := Real.exp_pos (-Real.exp (o.C * (1 - o.E / (q.pressure / q.density))) * dt)
      constructor <;> linarith
    · exact ⟨le_rfl, zero_le_one⟩
  have ha : 1 - a ≤ (o.Yign / (o.Yinit * o.tau)) ^ dt ∧ 0 < 1 - a := by
    have hb : 0 < o.Yign / (o.Yinit * o.tau) := by positivity
    simp only [a]
    rw [sub_sub_cancel, Real.rpow_def_of_pos hb]
    refine ⟨Real.exp_le_exp.2 ?_, Real.exp_pos _⟩
    have : Real.log (o.Yign / (o.Yinit * o.tau)) = -Real.log (o.Yinit * o.tau / o.Yign) := by
      rw [← Real.log_inv, inv_div]
    rw [this]
    nlinarith
  have hb1 : (o.Yign / (o.Yinit * o.tau)) ^ dt ≤ 1 := by
    refine Real.rpow_le_one (by positivity) ?_ hdt.le
    rw [div_le_one (by positivity)]
    rw [le_div_iff₀ h1] at hone; linarith
  have hfuel : q'.species 0 ≤ q.species 0 * (o.Yign / (o.Yinit * o.tau)) ^ dt := by
    rw [sp, sp', c0, f0]
    have k1 : (1 - c) * ((1 - a) * X 0) ≤ (1 - a) * X 0 := by
      have := mul_nonneg ha.2.le hx0; nlinarith [hc.1]
    have k2 : (1 - a) * X 0 ≤ (o.Yign / (o.Yinit * o.tau)) ^ dt * X 0 := mul_le_mul_of_nonneg_right ha.1 hx0
    calc q.density * ((1 - c) * ((1 - a) * X 0)) ≤ q.density * ((o.Yign / (o.Yinit * o.tau)) ^ dt * X 0) := mul_le_mul_of_nonneg_left (k1.trans k2) hr.le
      _ = _ := by ring
  refine ⟨q', e1, e2, e3, e4, e5, e6, ?_, hfuel, ?_, fun i hi => ?_, fun hign => ?_⟩
  · have hp' : q'.pressure = q.pressure + q.density * (o.Tdiff * (c * (X 0 + X 1))) := by
      rw [e2, f2] at e8
      field_simp at e8
      linear_combination e8
    rw [sp', sp', sp, sp, c0, c1, f0, f1, e5.energy_eq, hq.energy_eq, hp', e2, e3]
    field_simp
    ring
  · refine hfuel.trans ?_
    have := mul_le_mul_of_nonneg_left hb1 (hf.1 0)
    linarith
  · rw [sp, sp', e7]
    simp only [ignitionFractions, Fin.val_castSucc]
    rw [if_neg (by omega), if_neg (by omega), if_neg (by omega)]
  · have hcz : c = 0 := by
      simp only [c]
      refine if_neg fun hle => ?_
      rw [sp', c0, f0] at hign
      have k1 : (1 - c) * ((1 - a) * X 0) ≤ (1 - a) * X 0 := by
        have := mul_nonneg ha.2.le hx0; nlinarith [hc.1]
      have := mul_le_mul_of_nonneg_left (k1.trans hle) hr.le
      nlinarith
    rw [e2, f2, hcz] at e8
    field_simp at e8
    linarith

/-- **C75 (ignition delay).** After any number of steps of total length `t` the fuel is at most its initial value times `(Yign / (Yinit tau)) ^ t`. -/
theorem ignition_decay (o : IgnitionOptions) (eq : MixEq) (h : eq.Valid) (dts : List ℝ) (hdt : ∀ dt ∈ dts, 0 < dt) (q : MixComplete d (s + 2) t) (hq : IsMixState eq q)
    (hf : q.Fractions) (hA : 0 ≤ o.R2A) (h1 : 0 < o.Yign) (h2 : 0 < o.Yinit) (h3 : o.Yign / o.Yinit ≤ o.tau) (hT : 0 ≤ o.Tdiff) :
    ∃ q', ignitionSteps o eq dts q = some q' ∧ q'.density = q.density ∧ IsMixState eq q' ∧ q'.Fractions ∧
      q'.energy + o.Tdiff / (eq.gamma - 1) * (q'.species 0 + q'.species 1) = q.energy + o.Tdiff / (eq.gamma - 1) * (q.species 0 + q.species 1) ∧
      q'.species 0 ≤ q.species 0 * (o.Yign / (o.Yinit * o.tau)) ^ dts.sum := by
  have htau : 0 < o.tau := lt_of_lt_of_le (div_pos h1 h2) h3
  induction dts generalizing q with
  | nil => exact ⟨q, rfl, rfl, hq, hf, rfl, by simp⟩
  | cons dt dts ih =>
    obtain ⟨q1, a1, a2, -, -, a5, a6, a7, a8, -⟩ := ignition_conserves o eq h dt (hdt dt (by simp)) q hq hf hA h1 h2 h3 hT
    obtain ⟨q2, b1, b2, b3, b4, b5, b6⟩ := ih (fun x hx => hdt x (by simp [hx])) q1 a5 a6
    refine ⟨q2, by rw [ignitionSteps, a1]; exact b1, b2.trans a2, b3, b4, b5.trans a7, b6.trans ?_⟩
    have hb : 0 < o.Yign / (o.Yinit * o.tau) := by positivity
    rw [List.sum_cons, Real.rpow_add hb, ← mul_assoc]
    exact mul_le_mul_of_nonneg_right a8 (Real.rpow_nonneg hb.le _)

/-- **C75 (ignition delay), the part that holds.** With `tau = 1`, a gas with the initial fuel fraction is ignited after the time `tau`, in however many steps. -/
theorem ignition_delay_partial (o : IgnitionOptions) (eq : MixEq) (h : eq.Valid) (dts : List ℝ) (hdt : ∀ dt ∈ dts, 0 < dt) (q : MixComplete d (s + 2) t) (hq : IsMixState eq q)
    (hf : q.Fractions) (hA : 0 ≤ o.R2A) (h1 : 0 < o.Yign) (h2 : o.Yign ≤ o.Yinit) (h3 : o.tau = 1) (hT : 0 ≤ o.Tdiff) (h0 : q.species 0 = o.Yinit * q.density)
    (hsum : dts.sum = o.tau) : ∃ q', ignitionSteps o eq dts q = some q' ∧ q'.species 0 ≤ o.Yign * q'.density := by
  have h2' : 0 < o.Yinit := by linarith
  obtain ⟨q', e1, e2, -, -, -, e6⟩ := ignition_decay o eq h dts hdt q hq hf hA h1 h2' (by rw [h3, div_le_one h2']; exact h2) hT
  refine ⟨q', e1, ?_⟩
  rw [hsum, h3, Real.rpow_one, h0, mul_one] at e6
  rw [e2]
  calc _ ≤ _ := e6
    _ = _ := by field_simp

/-- **C75 is false for other delays.** With `tau = 1 / 2` and the other default values a gas of temperature one with the initial fuel fraction is not ignited after the time `tau`. -/
theorem ignition_delay_wrong : ∃ (o : IgnitionOptions) (q : MixComplete 0 2 0), o.tau = 1 / 2 ∧ IsMixState (computeConstants 287 (7 / 5)) q ∧ q.Fractions ∧
    q.species 0 = o.Yinit * q.density ∧ ∃ q', ignitionSteps o (computeConstants 287 (7 / 5)) [1 / 2] q = some q' ∧ o.Yign * q'.density < q'.species 0 := by
  have hv := (computeConstants_valid 287 (7 / 5) (by norm_num) (by norm_num)).1
  let o : IgnitionOptions := ⟨1 / 5, 1, 1 / 2, 0, 70, 6 / 5, 0, 5, 3 / 2, 1 / 2, 7, 27 / 10⟩
  let q : MixComplete 0 2 0 := mixFromPrim (computeConstants 287 (7 / 5)) ⟨1, fun _ => 0, 1, ![1, 0], fun _ => 0⟩
  have hs : IsMixState (computeConstants 287 (7 / 5)) q := (mix_prim_roundtrip _ hv _ (by norm_num) (by norm_num)).1
  have hf : q.Fractions := by
    refine ⟨fun i => ?_, ?_⟩
    · fin_cases i <;> simp [q, mixFromPrim]
    · simp [q, mixFromPrim, Fin.sum_univ_two]
  have hT : q.pressure / q.density = 1 := by simp [q, mixFromPrim]
  have hrate : ignitionRate o 1 = Real.log (5 / 2) + Real.exp (-14) := by
    simp only [ignitionRate, o, Real.one_rpow]
    rw [← Real.log_inv]; norm_num
  have hlog : 0 < Real.log (5 / 2) := Real.log_pos (by norm_num)
  have hr0 : 0 ≤ ignitionRate o (q.pressure / q.density) := by rw [hT, hrate]; positivity
  obtain ⟨q', e1, e2, e3, e4, e5, e6, e7, -⟩ := ignition_step o _ hv (1 / 2) (by norm_num) q hs hf hr0 (by norm_num [o])
  refine ⟨o, q, rfl, hs, hf, by simp [q, mixFromPrim, o], q', by simp only [ignitionSteps]; rw [e1]; rfl, ?_⟩
  obtain ⟨-, -, -, hfr⟩ := kinArray_eq q hs.density_pos hf
  obtain ⟨-, -, -, hfr'⟩ := kinArray_eq q' e5.density_pos e6
  have hx0 : (kinFromMix q).fractions 0 = 1 := by have := hfr 0; simpa [q, mixFromPrim] using this
  have hx2 : (kinFromMix q).fractions 2 = 0 := by
    have : (kinFromMix q).fractions (Fin.last 2) = 0 := by
      simp only [kinFromMix, Fin.snoc_last]; simp [q, mixFromPrim, Fin.sum_univ_two]
    exact this
  have hmain : 1 / 5 < Real.exp (-(Real.log (5 / 2) + Real.exp (-14)) * (1 / 2)) := by
    rw [show (1 / 5 : ℝ) = Real.exp (Real.log (1 / 5)) from (Real.exp_log (by norm_num)).symm]
    apply Real.exp_lt_exp.2
    have h25 : Real.log (1 / 5) = -(Real.log (5 / 2) + Real.log 10) * (1 / 2) := by
      rw [← Real.log_mul (by norm_num) (by norm_num), show (5 / 2 * 10 : ℝ) = 5 ^ 2 by norm_num, Real.log_pow, one_div, Real.log_inv]; push_cast; ring
    have h10 : 1 < Real.log 10 := by
      rw [Real.lt_log_iff_exp_lt (by norm_num)]
      have := Real.exp_one_lt_d9; linarith
    have h14 : Real.exp (-14) ≤ 1 := Real.exp_le_one_iff.2 (by norm_num)
    rw [h25]; linarith
  have hx0' : (kinFromMix q').fractions 0 = Real.exp (-(Real.log (5 / 2) + Real.exp (-14)) * (1 / 2)) := by
    rw [e7]
    simp only [ignitionFractions, Fin.val_zero, if_true, hT, hrate, hx0, hx2]
    rw [if_neg]
    · ring
    · simp only [o]
      rw [not_le]
      linarith
  have hd : q'.density = 1 := by rw [e2]; simp [q, mixFromPrim]
  have hsp : q'.species 0 = (kinFromMix q').fractions 0 := by
    have := hfr' 0
    rw [hd, div_one] at this
    exact this.symm
  rw [hsp, hx0', hd]
  simp only [o]
  linarith

/-- **C75 fails for small delays.** If `tau` is so small that the rate is negative, the assertion on the fractions fails for pure fuel. -/
theorem ignition_small_tau (o : IgnitionOptions) (eq : MixEq) (dt : ℝ) (hdt : 0 < dt) (q : MixComplete d 2 t) (hr : 0 < q.density) (h0 : q.species 0 = q.density)
    (h1 : q.species 1 = 0) (hY : o.Yign ≤ 1) (hrate : ignitionRate o (q.pressure / q.density) < 0) : ignitionAdvance o eq dt q = none := by
  have hf : q.Fractions := ⟨fun i => by fin_cases i <;> simp [h0, h1, hr.le], by simp [Fin.sum_univ_two, h0, h1]⟩
  obtain ⟨hk, hone, hpos, hfr⟩ := kinArray_eq q hr hf
  have x0 : (kinFromMix q).fractions 0 = 1 := by have := hfr 0; rw [h0, div_self hr.ne'] at this; exact this
  have x1 : (kinFromMix q).fractions 1 = 0 := by have := hfr 1; rw [h1, zero_div] at this; exact this
  have x2 : (kinFromMix q).fractions 2 = 0 := by
    have := hone; rw [Fin.sum_univ_three, x0, x1] at this; linarith
  have hE : 1 < Real.exp (-ignitionRate o (q.pressure / q.density) * dt) := by
    rw [Real.one_lt_exp_iff]; exact mul_pos (by linarith) hdt
  have hE' : 1 < Real.exp (-ignitionRate o (kinFromMix q).temperature * dt) := hE
  have hcz : (if (kinFromMix q).fractions 0 - (1 - Real.exp (-ignitionRate o (kinFromMix q).temperature * dt)) * (kinFromMix q).fractions 0 ≤
      o.Yign * (1 - (kinFromMix q).fractions 2) then 1 - Real.exp (-Real.exp (o.C * (1 - o.E / (kinFromMix q).temperature)) * dt) else 0) = 0 := by
    refine if_neg ?_
    rw [x0, x2, not_le]; linarith
  unfold ignitionAdvance
  rw [hk]
  simp only
  rw [if_pos ⟨hone, hdt⟩]
  simp only [hcz]
  rw [if_pos ⟨le_rfl, zero_le_one⟩, if_neg]
  intro hs
  rw [Fin.sum_univ_three] at hs
  simp only [Function.update_apply] at hs
  have n02 : (0 : Fin 3) ≠ 2 := by decide
  have n12 : (1 : Fin 3) ≠ 2 := by decide
  have n01 : (0 : Fin 3) ≠ 1 := by decide
  simp only [n02, n12, n01, if_false, if_true, zero_mul, sub_zero, add_zero, zero_add, x0, x1, x2] at hs
  generalize Real.exp (-ignitionRate o (kinFromMix q).temperature * dt) = e at hs hE'
  rw [max_eq_right (by linarith : (1 - e) * 1 ≤ 0)] at hs
  norm_num at hs
  linarith

/-- The step of the theorems, for the default values of the code and a gas with fuel, radicals and product. -/
example : ∃ q', ignitionSteps ⟨1 / 5, 1, 1, 0, 70, 6 / 5, 0, 5, 3 / 2, 1 / 2, 7, 27 / 10⟩ (computeConstants 287 (7 / 5)) [1 / 4, 1 / 2, 1 / 4] (exKin 2 1 0) = some q' ∧
    q'.species 0 ≤ 1 / 5 * q'.density := by
  obtain ⟨hs, hf⟩ := exKin_state 2 1 0 (by norm_num) (by norm_num) (by norm_num) (by norm_num)
  exact ignition_delay_partial ⟨1 / 5, 1, 1, 0, 70, 6 / 5, 0, 5, 3 / 2, 1 / 2, 7, 27 / 10⟩ _ (computeConstants_valid 287 (7 / 5) (by norm_num) (by norm_num)).1 [1 / 4, 1 / 2, 1 / 4]
    (by intro dt h; simp at h; rcases h with rfl | rfl | rfl <;> norm_num) (exKin 2 1 0) hs hf (by norm_num) (by norm_num) (by norm_num) rfl (by norm_num)
    (by simp [exKin, mixFromPrim]) (by norm_num)

end Fub
