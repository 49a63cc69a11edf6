import Verif.Props.IdealSignals
import Verif.Props.IdealPredictor
import Verif.Props.MusclGas
import Verif.Props.Flux
import Verif.Props.Limiter

/-!
# C139, C140: the MUSCL-Hancock methods of the ideal gas mixture
-/

namespace Fub

section
variable {d : ℕ} {S : Type} [Fintype S]

/-! ## From primitive variables to states -/

/-- Specification: a mechanism with positive molar masses and positive gas constant. -/
structure GoodMechanism (m : Mechanism S ℝ) : Prop where
  mass_pos : ∀ i, 0 < m.molarMass i
  gas_pos : 0 < m.gasConstant

theorem GoodMechanism.sum_pos {m : Mechanism S ℝ} (hm : GoodMechanism m) {Y : S → ℝ}
    (h0 : ∀ i, 0 ≤ Y i) (h1 : ∑ i, Y i = 1) : 0 < ∑ i, Y i / m.molarMass i := by
  have hex : ∃ i, 0 < Y i := by
    by_contra hne
    push Not at hne
    have : ∑ i, Y i = 0 := Finset.sum_eq_zero fun i _ => le_antisymm (hne i) (h0 i)
    linarith
  obtain ⟨i, hi⟩ := hex
  exact Finset.sum_pos' (fun j _ => div_nonneg (h0 j) (hm.mass_pos j).le)
    ⟨i, Finset.mem_univ i, div_pos hi (hm.mass_pos i)⟩

theorem setMassFractions_keep (m : Mechanism S ℝ) (s : ReactorState S ℝ) (y : S → ℝ)
    (h0 : ∀ i, 0 ≤ y i) (h1 : ∑ i, y i = 1) : (s.setMassFractions m y).massFractions = y := by
  funext i
  show (if (∑ j, max 0 (y j)) ≠ 0 then (fun i => max 0 (y i) / ∑ j, max 0 (y j))
      else fun i => max 0 (y i)) i = _
  have hm : ∀ i, max 0 (y i) = y i := fun i => max_eq_right (h0 i)
  simp only [hm, h1]
  norm_num

theorem massFractionsLane_keep (y : S → ℝ) (h0 : ∀ i, 0 ≤ y i) (h1 : ∑ i, y i = 1) :
    massFractionsLane y = y := by
  unfold massFractionsLane
  have ha : ∀ i, |y i| = y i := fun i => abs_of_nonneg (h0 i)
  simp only [ha, h1]
  norm_num

/-- The mass fractions after the scalar version: clipped at zero and divided by their sum. -/
theorem setMassFractions_clip (m : Mechanism S ℝ) (s : ReactorState S ℝ) (y : S → ℝ)
    (hy : ∃ i, 0 < y i) : (∀ i, 0 ≤ (s.setMassFractions m y).massFractions i) ∧
    ∑ i, (s.setMassFractions m y).massFractions i = 1 ∧
    ∀ i, (s.setMassFractions m y).massFractions i = max 0 (y i) / ∑ j, max 0 (y j) := by
  obtain ⟨i0, hi0⟩ := hy
  have hpos : 0 < ∑ j, max 0 (y j) := Finset.sum_pos' (fun j _ => le_max_left _ _)
    ⟨i0, Finset.mem_univ _, lt_of_lt_of_le hi0 (le_max_right _ _)⟩
  have e : ∀ i, (s.setMassFractions m y).massFractions i = max 0 (y i) / ∑ j, max 0 (y j) := by
    intro i
    show (if (∑ j, max 0 (y j)) ≠ 0 then (fun i => max 0 (y i) / ∑ j, max 0 (y j))
      else fun i => max 0 (y i)) i = _
    rw [if_pos hpos.ne']
  refine ⟨fun i => by rw [e]; exact div_nonneg (le_max_left _ _) hpos.le, ?_, e⟩
  simp only [e]
  rw [← Finset.sum_div, div_self hpos.ne']

theorem massFractionsLane_abs (y : S → ℝ) (hy : ∃ i, y i ≠ 0) :
    (∀ i, 0 ≤ massFractionsLane y i) ∧ ∑ i, massFractionsLane y i = 1 ∧
    ∀ i, massFractionsLane y i = |y i| / ∑ j, |y j| := by
  obtain ⟨i0, hi0⟩ := hy
  have hpos : 0 < ∑ j, |y j| := Finset.sum_pos' (fun j _ => abs_nonneg _)
    ⟨i0, Finset.mem_univ _, abs_pos.2 hi0⟩
  have e : ∀ i, massFractionsLane y i = |y i| / ∑ j, |y j| := by
    intro i
    simp only [massFractionsLane, gt_iff_lt, hpos, if_true]
  refine ⟨fun i => by rw [e]; exact div_nonneg (abs_nonneg _) hpos.le, ?_, e⟩
  simp only [e]
  rw [← Finset.sum_div, div_self hpos.ne']

/-- **C139** The state built from primitive variables, scalar version: for positive pressure and
temperature and at least one positive mass fraction it is a state of the mixture with exactly this
pressure, temperature and velocity, whatever the reactor held before; the mass fractions are clipped
and normalised. -/
theorem igm_from_prim_state (m : Mechanism S ℝ) (hm : GoodMechanism m) (s : ReactorState S ℝ)
    (hs : Cached m s) (w : IgmPrim d S) (hp : 0 < w.pressure) (hT : 0 < w.temperature)
    (hy : ∃ i, 0 < w.massFractions i) :
    IsMixture m (igmFromPrim m s w).2.density w.velocity
      (fun i => max 0 (w.massFractions i) / ∑ j, max 0 (w.massFractions j)) w.temperature
      (igmFromPrim m s w).2 ∧
    (igmFromPrim m s w).2.pressure = w.pressure ∧ 0 < (igmFromPrim m s w).2.density ∧
    Cached m (igmFromPrim m s w).1 := by
  obtain ⟨y0, y1, ye⟩ := setMassFractions_clip m (s.setDensity 1) w.massFractions hy
  have hX := hm.sum_pos y0 y1
  have hyf : ((s.setDensity 1).setMassFractions m w.massFractions).massFractions =
      fun i => max 0 (w.massFractions i) / ∑ j, max 0 (w.massFractions j) := funext ye
  have hc : Cached m ((s.setDensity 1).setMassFractions m w.massFractions) := hs
  have hset := setTemperature_fields m _ w.temperature hc
  have hR := hm.gas_pos
  rw [hyf] at hX
  set Y : S → ℝ := fun i => max 0 (w.massFractions i) / ∑ j, max 0 (w.massFractions j) with hY
  have hr : (igmPrimReactor m s w).density =
      w.pressure / (m.gasConstant * w.temperature * ∑ i, Y i / m.molarMass i) ∧
      (igmPrimReactor m s w).massFractions = Y ∧ (igmPrimReactor m s w).temperature = w.temperature ∧
      (igmPrimReactor m s w).thermoTemp = w.temperature ∧ Cached m (igmPrimReactor m s w) := by
    unfold igmPrimReactor
    rw [hset]
    refine ⟨?_, hyf, rfl, rfl, rfl, rfl⟩
    show w.pressure * (1 / ∑ i, ((s.setDensity 1).setMassFractions m w.massFractions).massFractions i /
      m.molarMass i) / w.temperature / m.gasConstant = _
    rw [hyf]
    field_simp
  obtain ⟨r1, r2, r3, r4, r5⟩ := hr
  have hpos : 0 < (igmPrimReactor m s w).density := by rw [r1]; positivity
  have hmix := igm_complete_from_reactor m (igmPrimReactor m s w) w.velocity r5 (r4.trans r3.symm) hpos.ne'
  rw [r2, r3] at hmix
  refine ⟨hmix, ?_, hpos, r5⟩
  show (igmCompleteFromReactor m (igmPrimReactor m s w) w.velocity).pressure = _
  rw [hmix.pressure, r1]
  field_simp

/-- **C139** The same for the array version; there the absolute values of the mass fractions are
normalised. -/
theorem igm_from_prim_lane (m : Mechanism S ℝ) (hm : GoodMechanism m) (w : IgmPrim d S)
    (hp : 0 < w.pressure) (hT : 0 < w.temperature) (hy : ∃ i, w.massFractions i ≠ 0) :
    IsMixture m (igmFromPrimLane m w).density w.velocity
      (fun i => |w.massFractions i| / ∑ j, |w.massFractions j|) w.temperature
      (igmFromPrimLane m w) ∧
    (igmFromPrimLane m w).pressure = w.pressure ∧ 0 < (igmFromPrimLane m w).density := by
  obtain ⟨y0, y1, ye⟩ := massFractionsLane_abs w.massFractions hy
  have hX := hm.sum_pos y0 y1
  have hyf : massFractionsLane w.massFractions =
      fun i => |w.massFractions i| / ∑ j, |w.massFractions j| := funext ye
  have hR := hm.gas_pos
  rw [hyf] at hX
  set Y : S → ℝ := fun i => |w.massFractions i| / ∑ j, |w.massFractions j| with hY
  have r1 : (igmPrimLane m w).density =
      w.pressure / (m.gasConstant * w.temperature * ∑ i, Y i / m.molarMass i) := by
    unfold igmPrimLane
    dsimp only
    rw [hyf, if_pos hX, if_pos hT]
    field_simp
  have r2 : (igmPrimLane m w).massFractions = Y := hyf
  have r3 : (igmPrimLane m w).temperature = w.temperature := rfl
  have hpos : 0 < (igmPrimLane m w).density := by rw [r1]; positivity
  have hmix := igm_complete_from_reactor m (igmPrimLane m w) w.velocity ⟨rfl, rfl⟩ rfl hpos.ne'
  rw [r2, r3] at hmix
  refine ⟨hmix, ?_, hpos⟩
  show (igmCompleteFromReactor m (igmPrimLane m w) w.velocity).pressure = _
  rw [hmix.pressure, r1]
  field_simp

theorem isMixture_unique {m : Mechanism S ℝ} {ρ ρ' T : ℝ} {v : Fin d → ℝ} {Y : S → ℝ}
    {q q' : IgmComplete d S} (h : IsMixture m ρ v Y T q) (h' : IsMixture m ρ' v Y T q')
    (hp : q.pressure = q'.pressure) (hne : m.gasConstant * T * ∑ i, Y i / m.molarMass i ≠ 0) :
    q = q' := by
  have hρ : ρ = ρ' := by
    have e := hp
    rw [h.pressure, h'.pressure] at e
    have e2 : (ρ - ρ') * (m.gasConstant * T * ∑ i, Y i / m.molarMass i) = 0 := by linear_combination e
    have := (mul_eq_zero.1 e2).resolve_right hne
    linarith
  subst hρ
  have hcp : q.cp = q'.cp := h.cp.trans h'.cp.symm
  have hg : q.gamma = q'.gamma := by rw [h.gamma, h'.gamma, hcp]
  have hd : q.density = q'.density := h.density.trans h'.density.symm
  have hs : q.speedOfSound = q'.speedOfSound := by rw [h.speedOfSound, h'.speedOfSound, hg, hp, hd]
  have hm : q.momentum = q'.momentum := funext fun i => (h.momentum i).trans (h'.momentum i).symm
  have hsp : q.species = q'.species := funext fun i => (h.species i).trans (h'.species i).symm
  have he : q.energy = q'.energy := h.energy.trans h'.energy.symm
  have ht : q.temperature = q'.temperature := h.temperature.trans h'.temperature.symm
  cases q with
  | mk c p a t cp g =>
    cases q' with
    | mk c' p' a' t' cp' g' =>
      cases c
      cases c'
      simp only at hcp hg hd hs hm hsp he ht hp
      subst hcp hg hd hs hm hsp he ht hp
      rfl

theorem norm_keep {y : S → ℝ} (h0 : ∀ i, 0 ≤ y i) (h1 : ∑ i, y i = 1) :
    (fun i => max 0 (y i) / ∑ j, max 0 (y j)) = y ∧ (fun i => |y i| / ∑ j, |y j|) = y ∧
    ∃ i, 0 < y i := by
  have hm : ∀ i, max 0 (y i) = y i := fun i => max_eq_right (h0 i)
  have ha : ∀ i, |y i| = y i := fun i => abs_of_nonneg (h0 i)
  refine ⟨by funext i; simp only [hm, h1, div_one], by funext i; simp only [ha, h1, div_one], ?_⟩
  by_contra hne
  push Not at hne
  have : ∑ i, y i = 0 := Finset.sum_eq_zero fun i _ => le_antisymm (hne i) (h0 i)
  linarith

/-- Specification: a physical state of the mixture. -/
structure IsGoodMixture (m : Mechanism S ℝ) (ρ : ℝ) (v : Fin d → ℝ) (Y : S → ℝ) (T : ℝ)
    (q : IgmComplete d S) : Prop extends IsMixture m ρ v Y T q where
  density_pos : 0 < ρ
  temperature_pos : 0 < T
  fraction_nonneg : ∀ i, 0 ≤ Y i
  fraction_sum : ∑ i, Y i = 1
  sound_pos : 0 < q.speedOfSound

theorem IsGoodMixture.toPrim {m : Mechanism S ℝ} {ρ T : ℝ} {v : Fin d → ℝ} {Y : S → ℝ}
    {q : IgmComplete d S} (h : IsGoodMixture m ρ v Y T q) :
    igmToPrim q = ⟨q.pressure, v, T, Y⟩ ∧ igmToPrimLane q = ⟨q.pressure, v, T, Y⟩ ∧
    igmToPrimMasked true q = ⟨q.pressure, v, T, Y⟩ := by
  have hne := h.density_pos.ne'
  have e : igmToPrim q = ⟨q.pressure, v, T, Y⟩ := by
    unfold igmToPrim
    ext i
    · rfl
    · simp only [h.momentum, h.density]; field_simp
    · exact h.temperature
    · simp only [h.species, h.density]; field_simp
  have hd : 0 < q.density := by rw [h.density]; exact h.density_pos
  have e2 : igmToPrimLane q = igmToPrim q := by
    simp only [igmToPrimLane, igmToPrim, hd, if_true]
  have e3 : igmToPrimMasked true q = igmToPrim q := by
    simp only [igmToPrimMasked, igmToPrim, hd, if_true]
  exact ⟨e, e2.trans e, e3.trans e⟩

theorem IsGoodMixture.pressure_pos {m : Mechanism S ℝ} (hm : GoodMechanism m) {ρ T : ℝ}
    {v : Fin d → ℝ} {Y : S → ℝ} {q : IgmComplete d S} (h : IsGoodMixture m ρ v Y T q) :
    0 < q.pressure := by
  rw [h.pressure]
  have h1 := hm.sum_pos h.fraction_nonneg h.fraction_sum
  have h2 := h.density_pos
  have h3 := hm.gas_pos
  have h4 := h.temperature_pos
  positivity

/-- **C139** Converting a state of the mixture to primitive variables and back gives the state, in all
versions and for every history of the reactor. -/
theorem igm_prim_round_trip (m : Mechanism S ℝ) (hm : GoodMechanism m) (s : ReactorState S ℝ)
    (hs : Cached m s) {ρ T : ℝ} {v : Fin d → ℝ} {Y : S → ℝ} {q : IgmComplete d S}
    (h : IsGoodMixture m ρ v Y T q) :
    (igmFromPrim m s (igmToPrim q)).2 = q ∧ igmFromPrimLane m (igmToPrimLane q) = q ∧
    igmFromPrimMasked true m (igmToPrimMasked true q) = q := by
  obtain ⟨t1, t2, t3⟩ := h.toPrim
  obtain ⟨n1, n2, n3⟩ := norm_keep h.fraction_nonneg h.fraction_sum
  have hp := h.pressure_pos hm
  have hne : m.gasConstant * T * ∑ i, Y i / m.molarMass i ≠ 0 := by
    have h1 := hm.sum_pos h.fraction_nonneg h.fraction_sum
    have h3 := hm.gas_pos
    have h4 := h.temperature_pos
    positivity
  have hlane : igmFromPrimLane m (⟨q.pressure, v, T, Y⟩ : IgmPrim d S) = q := by
    obtain ⟨a1, a2, a3⟩ := igm_from_prim_lane m hm (⟨q.pressure, v, T, Y⟩ : IgmPrim d S) hp
      h.temperature_pos (n3.imp fun i hi => hi.ne')
    dsimp only at a1 a2
    rw [n2] at a1
    exact isMixture_unique a1 h.toIsMixture a2 hne
  refine ⟨?_, by rw [t2, hlane], by rw [t3]; exact hlane⟩
  rw [t1]
  obtain ⟨a1, a2, a3, -⟩ := igm_from_prim_state m hm s hs (⟨q.pressure, v, T, Y⟩ : IgmPrim d S) hp
    h.temperature_pos n3
  dsimp only at a1 a2
  rw [n1] at a1
  exact isMixture_unique a1 h.toIsMixture a2 hne

/-! ## Slopes -/

/-- Specification: the primitive state with all members zero. -/
def zeroPrim (d : ℕ) (S : Type) : IgmPrim d S := ⟨0, fun _ => 0, 0, fun _ => 0⟩

theorem igmSigma_mul (eps qL qM qR : ℝ) :
    igmSigma eps qL qM qR * (1 / 2 * (qR - qL)) = primLimiter eps qL qM qR := rfl

theorem igmSigmaMasked_true (eps qL qM qR : ℝ) :
    igmSigmaMasked true eps qL qM qR = igmSigma eps qL qM qR := by
  unfold igmSigmaMasked igmSigma
  simp only [if_true]
  by_cases h : eps < |1 / 2 * (qR - qL)|
  · simp only [h, true_and]
  · simp only [h, if_false, false_and]
    norm_num

theorem igmSlopesMasked_true (eps : ℝ) (first : S) (pL pM pR : IgmPrim d S) :
    igmSlopesMasked true eps first pL pM pR = igmSlopesLane eps first pL pM pR := by
  unfold igmSlopesMasked igmSlopesLane
  simp only [igmSigmaMasked_true, if_true]

theorem igmSlopesMasked_false (eps : ℝ) (first : S) (pL pM pR : IgmPrim d S) :
    igmSlopesMasked false eps first pL pM pR = zeroPrim d S := by
  simp [igmSlopesMasked, zeroPrim]

theorem igmSlopes_const (w : IgmPrim d S) : igmSlopes w w w = zeroPrim d S := by
  simp [igmSlopes, minModSlope, zeroPrim]

theorem igmSlopesLane_const (eps : ℝ) (first : S) (w : IgmPrim d S) :
    igmSlopesLane eps first w w w = zeroPrim d S := by
  simp [igmSlopesLane, zeroPrim]

theorem igmPrimDerivatives_zero (m : Mechanism S ℝ) (q : IgmComplete d S) (dir : Fin d) :
    igmPrimDerivatives m q (zeroPrim d S) dir = zeroPrim d S := by
  simp [igmPrimDerivatives, zeroPrim]

theorem igmUpper_zero (lambda : ℝ) (w : IgmPrim d S) :
    igmUpper lambda w (zeroPrim d S) (zeroPrim d S) = w ∧
    igmLower lambda w (zeroPrim d S) (zeroPrim d S) = w ∧
    igmLowerLane lambda w (zeroPrim d S) (zeroPrim d S) = w := by
  simp [igmUpper, igmLower, igmLowerLane, zeroPrim]

theorem igmPrimDerivativesMasked_true (m : Mechanism S ℝ) (q : IgmComplete d S)
    (dx : IgmPrim d S) (dir : Fin d) :
    igmPrimDerivativesMasked true m q dx dir = igmPrimDerivatives m q dx dir := by
  unfold igmPrimDerivativesMasked igmPrimDerivatives
  simp only [if_true]
  ext i
  · dsimp only; ring
  · rfl
  · rfl
  · rfl

/-! ## Consistency -/

theorem igm_hll_consistent (m : Mechanism S ℝ) {ρ T : ℝ} {v : Fin d → ℝ} {Y : S → ℝ}
    {q : IgmComplete d S} (h : IsGoodMixture m ρ v Y T q) (old : IgmCons d S)
    (complete : IgmCons d S → IgmComplete d S) (dir : Fin d) :
    hllFlux (igmEqn old complete dir) (igmEinfeldt dir) q q =
      some (mixNormalFlux q fun i => if i = dir then 1 else 0).get ∧
    hllFluxArray (igmEqnLane complete dir) (igmEinfeldtLane dir) q q =
      (mixNormalFlux q fun i => if i = dir then 1 else 0).get ∧
    ∀ face, 0 < face → hllFluxMasked (igmEqnLane complete dir) (fun b => igmEinfeldtMasked dir b)
      (fun b q => (igmFluxMasked b q dir).get) face q q =
      some (mixNormalFlux q fun i => if i = dir then 1 else 0).get := by
  have hd : 0 < q.density := by rw [h.density]; exact h.density_pos
  obtain ⟨s1, s2⟩ := igm_einfeldt_same dir q hd h.sound_pos.le
  obtain ⟨f1, f2, f3, -⟩ := igm_flux_spec old q dir hd
  have key : ∀ s : ℝ × ℝ, s = (q.momentum dir / q.density - q.speedOfSound,
      q.momentum dir / q.density + q.speedOfSound) → s.1 < 0 ∨ 0 < s.2 := by
    rintro s rfl
    have := h.sound_pos
    by_cases hu : 0 ≤ q.momentum dir / q.density
    · right; show 0 < q.momentum dir / q.density + q.speedOfSound; linarith
    · left; show q.momentum dir / q.density - q.speedOfSound < 0; linarith
  refine ⟨?_, ?_, fun face hf => ?_⟩
  · rw [(hll_consistent (igmEqn old complete dir) (igmEinfeldt dir) q (key _ s1)).1]
    show some (igmFlux old q dir).get = _
    rw [f1]
  · rw [(hll_consistent (igmEqnLane complete dir) (igmEinfeldtLane dir) q (key _ s2)).2.1]
    show (igmFluxLane q dir).get = _
    rw [f2]
  · have hc := ((hll_consistent (igmEqnLane complete dir) (igmEinfeldt dir) q (key _ s1)).2.2
      (fun b => igmEinfeldtMasked dir b) (fun b q => (igmFluxMasked b q dir).get) face).1 hf
      ((igm_einfeldt_masked dir q q).1 hd hd)
      (by show (igmFluxMasked true q dir).get = (igmFluxLane q dir).get; rw [f2, f3])
    rw [hc]
    show some (igmFluxLane q dir).get = _
    rw [f2]

/-- **C139** Consistency: in a uniform flow the primitive method returns the flux of the Euler
equations, in all three versions, for every time step and every history of the reactor. -/
theorem igm_muscl_prim_consistent (m : Mechanism S ℝ) (hm : GoodMechanism m)
    (s : ReactorState S ℝ) (hs : Cached m s) {ρ T : ℝ} {v : Fin d → ℝ} {Y : S → ℝ}
    {q : IgmComplete d S} (h : IsGoodMixture m ρ v Y T q) (old : IgmCons d S)
    (complete : IgmCons d S → IgmComplete d S) (eps : ℝ) (first : S) (lambda : ℝ) (dir : Fin d) :
    igmMusclPrimFlux m s old complete lambda dir q q q q =
      some (mixNormalFlux q fun i => if i = dir then 1 else 0).get ∧
    igmMusclPrimFluxLane m eps first complete lambda dir q q q q =
      (mixNormalFlux q fun i => if i = dir then 1 else 0).get ∧
    ∀ face vol0 vol3, 0 < face → 0 < vol0 → 0 < vol3 →
      igmMusclPrimFluxMaskedLane m eps first complete lambda dir face vol0 vol3 q q q q =
        some (mixNormalFlux q fun i => if i = dir then 1 else 0).get := by
  obtain ⟨c1, c2, c3⟩ := igm_hll_consistent m h old complete dir
  obtain ⟨r1, r2, r3⟩ := igm_prim_round_trip m hm s hs h
  obtain ⟨t1, t2, t3⟩ := h.toPrim
  refine ⟨?_, ?_, ?_⟩
  · have hw : igmPrimFaces m lambda dir q q q q = (igmToPrim q, igmToPrim q) := by
      simp only [igmPrimFaces, igmSlopes_const, igmPrimDerivatives_zero, igmUpper_zero]
    unfold igmMusclPrimFlux
    simp only [hw]
    have hc : Cached m (igmFromPrim m s (igmToPrim q)).1 := by
      obtain ⟨-, -, n3⟩ := norm_keep h.fraction_nonneg h.fraction_sum
      rw [t1]
      exact (igm_from_prim_state m hm s hs _ (h.pressure_pos hm) h.temperature_pos n3).2.2.2
    rw [r1, (igm_prim_round_trip m hm _ hc h).1, c1]
  · have hw : igmPrimFacesLane m eps first lambda dir q q q q = (igmToPrimLane q, igmToPrimLane q) := by
      simp only [igmPrimFacesLane, igmSlopesLane_const, igmPrimDerivatives_zero, igmUpper_zero]
    unfold igmMusclPrimFluxLane
    simp only [hw]
    rw [r2, c2]
  · intro face vol0 vol3 hf h0 h3
    have hw : igmPrimFacesMasked m eps first lambda dir face vol0 vol3 q q q q =
        (igmToPrimMasked true q, igmToPrimMasked true q) := by
      simp only [igmPrimFacesMasked, hf, h0, h3, decide_true, Bool.and_self, igmSlopesMasked_true,
        igmPrimDerivativesMasked_true, igmSlopesLane_const, igmPrimDerivatives_zero, igmUpper_zero]
    unfold igmMusclPrimFluxMaskedLane
    simp only [hw, hf, decide_true]
    rw [r3, c3 face hf]

end

end Fub
