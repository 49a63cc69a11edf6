import Verif.Model.ValveFill
import Verif.Spec.Boundary
import Verif.Props.Boundary
import Verif.Props.Average
import Verif.Props.Valve
import Verif.Props.Reactor
import Verif.Props.IdealGasMix
import Verif.Props.MassflowHll
import Mathlib.Tactic.FieldSimp
import Mathlib.Tactic.Positivity

/-!
# C180, C181: The gas which the pressure valve and the mass flow boundary put in front of a tube
-/

namespace Fub
variable {n d : ℕ} {S : Type*} [Fintype S]

/-! ## Specification -/

/-- The state `q` is the complete state of the mixture with mole fractions `X` at temperature `T` and pressure `p`, which moves with velocity `v`. -/
def MixtureAt (m : Mechanism S ℝ) (X : S → ℝ) (T p : ℝ) (v : Fin d → ℝ) (q : IgmComplete d S) : Prop :=
  IsMixture m (p * (∑ j, X j * m.molarMass j) / (m.gasConstant * T)) v (fun i => X i * m.molarMass i / ∑ j, X j * m.molarMass j) T q ∧ q.pressure = p

/-- The mole fractions of the amounts of substance `x`. -/
noncomputable def moleFractionsOf (x : S → ℝ) : S → ℝ := fun i => x i / ∑ j, x j

/-- The amounts of substance per volume of a state. -/
noncomputable def amounts (m : Mechanism S ℝ) (q : IgmComplete d S) : S → ℝ := fun i => q.species i / m.molarMass i

/-- The amounts after so much hydrogen was added or removed that there are `2 φ` hydrogen molecules for each oxygen molecule: equivalence ratio `φ` for `2 H2 + O2 → 2 H2O`. -/
noncomputable def withFuel [DecidableEq S] (h2 o2 : S) (φ : ℝ) (x : S → ℝ) : S → ℝ := fun i => if i = h2 then 2 * φ * x o2 else x i

/-! ## Composition -/

/-- A state is determined by its density, velocity, composition and temperature. -/
theorem IsMixture.unique {m : Mechanism S ℝ} {ρ : ℝ} {v : Fin d → ℝ} {Y : S → ℝ} {T : ℝ} {q q' : IgmComplete d S} (h : IsMixture m ρ v Y T q) (h' : IsMixture m ρ v Y T q') : q = q' := by
  obtain ⟨⟨a1, a2, a3, a4⟩, a5, a6, a7, a8, a9⟩ := q
  obtain ⟨⟨b1, b2, b3, b4⟩, b5, b6, b7, b8, b9⟩ := q'
  have e1 := h.density.trans h'.density.symm
  have e2 : a2 = b2 := funext fun i => (h.momentum i).trans (h'.momentum i).symm
  have e4 : a4 = b4 := funext fun i => (h.species i).trans (h'.species i).symm
  have e3 := h.energy.trans h'.energy.symm
  have e5 := h.pressure.trans h'.pressure.symm
  have e7 := h.temperature.trans h'.temperature.symm
  have e8 := h.cp.trans h'.cp.symm
  simp only at e1 e3 e5 e7 e8
  subst e1 e2 e3 e4 e5 e7 e8
  have e9 := h.gamma.trans h'.gamma.symm
  simp only at e9
  subst e9
  have e6 := h.speedOfSound.trans h'.speedOfSound.symm
  simp only at e6
  subst e6
  rfl

theorem moleSum_pos (m : Mechanism S ℝ) (hM : ∀ i, 0 < m.molarMass i) (x : S → ℝ) (hx : ∀ i, 0 ≤ x i) (h1 : 0 < ∑ i, x i) : 0 < ∑ j, x j * m.molarMass j := by
  obtain ⟨j, -, hj⟩ := Finset.exists_ne_zero_of_sum_ne_zero h1.ne'
  exact Finset.sum_pos' (fun i _ => mul_nonneg (hx i) (hM i).le) ⟨j, Finset.mem_univ j, mul_pos (lt_of_le_of_ne (hx j) (Ne.symm hj)) (hM j)⟩

theorem setMole_massFractions (m : Mechanism S ℝ) (s : ReactorState S ℝ) (x : S → ℝ) (hM : ∀ i, 0 < m.molarMass i) (hx : ∀ i, 0 ≤ x i) (h1 : 0 < ∑ i, x i) :
    (s.setMoleFractions m x).massFractions = fun i => moleFractionsOf x i * m.molarMass i / ∑ j, moleFractionsOf x j * m.molarMass j := by
  have hne := h1.ne'
  have hy : (s.setMassFractions m x).massFractions = moleFractionsOf x := by
    funext i
    show (if (∑ j, max 0 (x j)) ≠ 0 then (fun i => max 0 (x i) / ∑ j, max 0 (x j)) else fun i => max 0 (x i)) i = _
    have : ∀ j, max 0 (x j) = x j := fun j => max_eq_right (hx j)
    simp only [this, ne_eq, hne, not_false_eq_true, if_true, moleFractionsOf]
  funext i
  show (s.setMassFractions m x).massFractions i * (m.molarMass i / ∑ j, (s.setMassFractions m x).massFractions j * m.molarMass j) = _
  rw [hy]
  ring

/-- **C180 (what the reactor yields).** For every mechanism, every history of the reactor, all non-negative amounts (not all zero), every positive temperature and pressure
and every velocity: the state that is computed from the reactor is the state of the mixture with these mole fractions at this temperature and pressure; it does not depend on the history. -/
theorem mixture_from_reactor (m : Mechanism S ℝ) (s : ReactorState S ℝ) (hs : Cached m s) (hM : ∀ i, 0 < m.molarMass i) (hR : 0 < m.gasConstant) (x : S → ℝ) (hx : ∀ i, 0 ≤ x i)
    (h1 : 0 < ∑ i, x i) (T p : ℝ) (hT : 0 < T) (hp : 0 < p) (v : Fin d → ℝ) :
    MixtureAt m (moleFractionsOf x) T p v (igmCompleteFromReactor m (((s.setMoleFractions m x).setTemperature m T).setPressure m p) v) := by
  set s1 := s.setMoleFractions m x with hs1
  have hc1 : Cached m s1 := hs
  obtain ⟨hc2, ht2, ht2'⟩ := updateThermo_cached m T ({ s1 with temperature := T } : ReactorState S ℝ) hc1
  have hmf : s1.massFractions = _ := setMole_massFractions m s x hM hx h1
  have hX0 : ∀ i, 0 ≤ moleFractionsOf x i := fun i => div_nonneg (hx i) h1.le
  have hXs : ∑ i, moleFractionsOf x i = 1 := by
    simp only [moleFractionsOf]
    rw [← Finset.sum_div, div_self h1.ne']
  have hW := moleSum_pos m hM (moleFractionsOf x) hX0 (by rw [hXs]; exact one_pos)
  set X := moleFractionsOf x with hX
  set W := ∑ j, X j * m.molarMass j with hWd
  have hmean : ∑ i, s1.massFractions i / m.molarMass i = 1 / W := by
    rw [hmf]
    have : ∀ i, X i * m.molarMass i / W / m.molarMass i = X i / W := fun i => by
      have := (hM i).ne'
      field_simp
    simp only [this]
    rw [← Finset.sum_div, hXs]
  set s2 := s1.setTemperature m T with hs2
  have hmf2 : s2.massFractions = s1.massFractions := by
    rw [hs2, setTemperature_fields m s1 T hc1]
  have htemp : s2.temperature = T := ht2'
  have hmM : s2.meanMolarMass m = W := by
    unfold ReactorState.meanMolarMass
    rw [hmf2, hmean, one_div_one_div]
  have hd : (s2.setPressure m p).density = p * W / (m.gasConstant * T) := by
    show p * s2.meanMolarMass m / s2.temperature / m.gasConstant = _
    rw [hmM, htemp]
    field_simp
  have key := igm_complete_from_reactor m (s2.setPressure m p) v hc2 (ht2.trans ht2'.symm) (by rw [hd]; positivity)
  have e1 : (s2.setPressure m p).massFractions = fun i => X i * m.molarMass i / W := hmf2.trans hmf
  have e2 : (s2.setPressure m p).temperature = T := htemp
  rw [hd, e1, e2] at key
  refine ⟨key, ?_⟩
  have h3 : ∑ i, X i * m.molarMass i / W / m.molarMass i = 1 / W := by rw [← hmean, hmf]
  rw [key.pressure, h3]
  field_simp

theorem igmSetReactor_cached (m : Mechanism S ℝ) (s : ReactorState S ℝ) (hs : Cached m s) (q : IgmComplete d S) : Cached m (igmSetReactor m q s) :=
  (updateThermo_cached m q.temperature _ (show Cached m ({ ((s.setDensity q.density).setMassFractions m q.species) with temperature := q.temperature } : ReactorState S ℝ) from hs)).1

/-- **C180 (air).** If the valve is open for air, the state of the ghost cell is replaced by air at 300 K with the pressure and the velocity of the replaced state. -/
theorem valveAir_spec (m : Mechanism S ℝ) (s : ReactorState S ℝ) (hs : Cached m s) (hM : ∀ i, 0 < m.molarMass i) (hR : 0 < m.gasConstant) (air : S → ℝ) (ha : ∀ i, 0 ≤ air i)
    (h1 : ∑ i, air i = 1) (q : IgmComplete d S) (hp : 0 < q.pressure) :
    MixtureAt m air 300 q.pressure (fun i => q.momentum i / q.density) (valveAir m air s q) := by
  have h := mixture_from_reactor m ((igmSetReactor m q s).setDensity 1) (igmSetReactor_cached m s hs q) hM hR air ha (by rw [h1]; exact one_pos) 300 q.pressure (by norm_num) hp (igmVelocity q.toIgmCons)
  have e : moleFractionsOf air = air := by
    funext i; simp [moleFractionsOf, h1]
  rw [e] at h
  exact h

/-- **C180 (fuel).** If the valve is open for fuel, the state of the ghost cell is replaced by the state with the same temperature, pressure and velocity, in which the amount of hydrogen
is the one of the equivalence ratio for the oxygen that is there, and the amounts of the other species have their old proportions. -/
theorem valveFuel_spec [DecidableEq S] (m : Mechanism S ℝ) (s : ReactorState S ℝ) (hs : Cached m s) (hM : ∀ i, 0 < m.molarMass i) (hR : 0 < m.gasConstant) (h2 o2 : S) (φ : ℝ) (hφ : 0 ≤ φ)
    (q : IgmComplete d S) (hq : 0 < q.density) (hY : ∀ i, 0 ≤ q.species i) (hN : 0 < ∑ i, withFuel h2 o2 φ (amounts m q) i) (hp : 0 < q.pressure) (hT : 0 < q.temperature) :
    MixtureAt m (moleFractionsOf (withFuel h2 o2 φ (amounts m q))) q.temperature q.pressure (fun i => q.momentum i / q.density) (valveFuel m h2 o2 φ s q) := by
  have hpos : ∃ i, 0 < q.species i := by
    by_contra hcon
    push Not at hcon
    have h0 : ∀ i, q.species i = 0 := fun i => le_antisymm (hcon i) (hY i)
    have : ∑ i, withFuel h2 o2 φ (amounts m q) i = 0 := Finset.sum_eq_zero fun i _ => by simp [withFuel, amounts, h0]
    exact hN.ne' this
  have hsum : 0 < ∑ j, q.species j := by
    obtain ⟨j, hj⟩ := hpos
    exact Finset.sum_pos' (fun i _ => hY i) ⟨j, Finset.mem_univ j, hj⟩
  set c := q.density / ∑ j, q.species j with hc
  have hc0 : 0 < c := div_pos hq hsum
  set r := (igmSetReactor m q s).getMoleFractions m with hr
  have hr2 : ∀ i, r.2 i = c * amounts m q i := by
    intro i
    have e := (set_mass_fractions_spec m (s.setDensity q.density) q.species hpos).2.2.1 i
    have hm : ∀ i, max 0 (q.species i) = q.species i := fun i => max_eq_right (hY i)
    simp only [hm] at e
    have e1 : (igmSetReactor m q s).massFractions = ((s.setDensity q.density).setMassFractions m q.species).massFractions := by
      unfold igmSetReactor
      rw [setTemperature_fields m _ _ (show Cached m ((s.setDensity q.density).setMassFractions m q.species) from hs)]
    have e2 : (igmSetReactor m q s).density = q.density := by
      unfold igmSetReactor
      rw [setTemperature_fields m _ _ (show Cached m ((s.setDensity q.density).setMassFractions m q.species) from hs)]
      rfl
    show (igmSetReactor m q s).massFractions i * (igmSetReactor m q s).density / m.molarMass i = _
    rw [e1, e2, eq_div_of_mul_eq hsum.ne' e, hc, amounts]
    ring
  have hx : Function.update r.2 h2 (2 * φ * r.2 o2) = fun i => c * withFuel h2 o2 φ (amounts m q) i := by
    funext i
    by_cases h : i = h2
    · subst h; simp only [Function.update_self, withFuel, if_true, hr2]; ring
    · simp only [Function.update_of_ne h, withFuel, if_neg h, hr2]
  have ha : ∀ i, 0 ≤ amounts m q i := fun i => div_nonneg (hY i) (hM i).le
  have hw : ∀ i, 0 ≤ withFuel h2 o2 φ (amounts m q) i := by
    intro i
    unfold withFuel
    split_ifs
    · exact mul_nonneg (mul_nonneg (by norm_num) hφ) (ha o2)
    · exact ha i
  have h := mixture_from_reactor m (r.1.setDensity 1) (igmSetReactor_cached m s hs q) hM hR (fun i => c * withFuel h2 o2 φ (amounts m q) i) (fun i => mul_nonneg hc0.le (hw i))
    (by rw [← Finset.mul_sum]; exact mul_pos hc0 hN) q.temperature q.pressure hT hp (igmVelocity q.toIgmCons)
  have e : moleFractionsOf (fun i => c * withFuel h2 o2 φ (amounts m q) i) = moleFractionsOf (withFuel h2 o2 φ (amounts m q)) := by
    funext i
    simp only [moleFractionsOf]
    rw [← Finset.mul_sum, mul_div_mul_left _ _ hc0.ne']
  rw [e] at h
  rw [← hx] at h
  exact h

/-- What the specification means: the equivalence ratio, and the unchanged proportions. -/
theorem withFuel_ratio [DecidableEq S] (h2 o2 : S) (hne : o2 ≠ h2) (φ : ℝ) (x : S → ℝ) :
    withFuel h2 o2 φ x h2 = 2 * φ * withFuel h2 o2 φ x o2 ∧ ∀ i, i ≠ h2 → withFuel h2 o2 φ x i = x i := by
  refine ⟨by simp [withFuel, hne], fun i hi => by simp [withFuel, hi]⟩

/-! ## Replacing twice, and the mass flow -/

theorem MixtureAt.unique {m : Mechanism S ℝ} {X : S → ℝ} {T p : ℝ} {v : Fin d → ℝ} {q q' : IgmComplete d S} (h : MixtureAt m X T p v q) (h' : MixtureAt m X T p v q') : q = q' :=
  h.1.unique h'.1

/-- What a mixture state contains: positive density, pressure and temperature, its velocity and its mole fractions. -/
theorem MixtureAt.content {m : Mechanism S ℝ} (hM : ∀ i, 0 < m.molarMass i) (hR : 0 < m.gasConstant) {X : S → ℝ} (hX : ∀ i, 0 ≤ X i) (h1 : ∑ i, X i = 1) {T p : ℝ} (hT : 0 < T) (hp : 0 < p)
    {v : Fin d → ℝ} {q : IgmComplete d S} (h : MixtureAt m X T p v q) :
    0 < q.density ∧ q.temperature = T ∧ q.pressure = p ∧ (∀ i, q.momentum i / q.density = v i) ∧ (∀ i, 0 ≤ q.species i) ∧
      ∀ i, amounts m q i = p / (m.gasConstant * T) * X i := by
  have hW := moleSum_pos m hM X hX (by rw [h1]; exact one_pos)
  obtain ⟨h, hpr⟩ := h
  have hd : 0 < q.density := by rw [h.density]; positivity
  refine ⟨hd, h.temperature, hpr, fun i => ?_, fun i => ?_, fun i => ?_⟩
  · rw [h.momentum, ← h.density]; field_simp
  · rw [h.species]
    have := hX i
    have := (hM i).le
    positivity
  · rw [amounts, h.species]
    have := (hM i).ne'
    field_simp

/-- **C180 (overlapping tiles, air).** Replacing the state twice, as it happens in a ghost cell that belongs to two tiles, has the same result as replacing it once. -/
theorem valveAir_twice (m : Mechanism S ℝ) (s s' : ReactorState S ℝ) (hs : Cached m s) (hs' : Cached m s') (hM : ∀ i, 0 < m.molarMass i) (hR : 0 < m.gasConstant) (air : S → ℝ) (ha : ∀ i, 0 ≤ air i)
    (h1 : ∑ i, air i = 1) (q : IgmComplete d S) (hp : 0 < q.pressure) : valveAir m air s' (valveAir m air s q) = valveAir m air s q := by
  have h := valveAir_spec m s hs hM hR air ha h1 q hp
  obtain ⟨c1, c2, c3, c4, c5, c6⟩ := h.content hM hR ha h1 (by norm_num) hp
  have h' := valveAir_spec m s' hs' hM hR air ha h1 (valveAir m air s q) (by rw [c3]; exact hp)
  rw [c3, funext c4] at h'
  exact h'.unique h

/-- The conditions under which the state of a ghost cell can be fuelled. -/
structure Fuelable [DecidableEq S] (m : Mechanism S ℝ) (h2 o2 : S) (φ : ℝ) (q : IgmComplete d S) : Prop where
  density : 0 < q.density
  pressure : 0 < q.pressure
  temperature : 0 < q.temperature
  species : ∀ i, 0 ≤ q.species i
  moles : 0 < ∑ i, withFuel h2 o2 φ (amounts m q) i

theorem valveFuel_again [DecidableEq S] (m : Mechanism S ℝ) (s s' : ReactorState S ℝ) (hs : Cached m s) (hs' : Cached m s') (hM : ∀ i, 0 < m.molarMass i) (hR : 0 < m.gasConstant) (h2 o2 : S) (hne : o2 ≠ h2)
    (φ : ℝ) (hφ : 0 ≤ φ) (q : IgmComplete d S) (hq : 0 < q.density) (hY : ∀ i, 0 ≤ q.species i) (hN : 0 < ∑ i, withFuel h2 o2 φ (amounts m q) i) (hp : 0 < q.pressure) (hT : 0 < q.temperature) :
    Fuelable m h2 o2 φ (valveFuel m h2 o2 φ s q) ∧ valveFuel m h2 o2 φ s' (valveFuel m h2 o2 φ s q) = valveFuel m h2 o2 φ s q := by
  have h := valveFuel_spec m s hs hM hR h2 o2 φ hφ q hq hY hN hp hT
  set x := withFuel h2 o2 φ (amounts m q) with hx
  have hx0 : ∀ i, 0 ≤ x i := by
    intro i
    have ha : ∀ i, 0 ≤ amounts m q i := fun i => div_nonneg (hY i) (hM i).le
    rw [hx]; unfold withFuel
    split_ifs
    · exact mul_nonneg (mul_nonneg (by norm_num) hφ) (ha o2)
    · exact ha i
  have hX0 : ∀ i, 0 ≤ moleFractionsOf x i := fun i => div_nonneg (hx0 i) hN.le
  have hX1 : ∑ i, moleFractionsOf x i = 1 := by
    simp only [moleFractionsOf]
    rw [← Finset.sum_div, div_self hN.ne']
  obtain ⟨c1, c2, c3, c4, c5, c6⟩ := h.content hM hR hX0 hX1 hT hp
  set k := q.pressure / (m.gasConstant * q.temperature) with hk
  have hk0 : 0 < k := by positivity
  have hfix : withFuel h2 o2 φ (amounts m (valveFuel m h2 o2 φ s q)) = fun i => k / (∑ j, x j) * x i := by
    funext i
    have hr := withFuel_ratio h2 o2 hne φ (amounts m q)
    unfold withFuel
    split_ifs with hi
    · rw [c6, moleFractionsOf, hi, hx, hr.1]; ring
    · rw [c6, moleFractionsOf]; ring
  have hN' : 0 < ∑ i, withFuel h2 o2 φ (amounts m (valveFuel m h2 o2 φ s q)) i := by
    rw [hfix, ← Finset.mul_sum]
    exact mul_pos (div_pos hk0 hN) hN
  have h' := valveFuel_spec m s' hs' hM hR h2 o2 φ hφ (valveFuel m h2 o2 φ s q) c1 c5 hN' (by rw [c3]; exact hp) (by rw [c2]; exact hT)
  have hm : moleFractionsOf (fun i => k / (∑ j, x j) * x i) = moleFractionsOf x := by
    funext i
    have : k / (∑ j, x j) ≠ 0 := (div_pos hk0 hN).ne'
    simp only [moleFractionsOf]
    rw [← Finset.mul_sum, mul_div_mul_left _ _ this]
  rw [hfix, hm, c2, c3, funext c4] at h'
  exact ⟨⟨c1, by rw [c3]; exact hp, by rw [c2]; exact hT, c5, hN'⟩, h'.unique h⟩

/-- **C180 (overlapping tiles, fuel).** -/
theorem valveFuel_twice [DecidableEq S] (m : Mechanism S ℝ) (s s' : ReactorState S ℝ) (hs : Cached m s) (hs' : Cached m s') (hM : ∀ i, 0 < m.molarMass i) (hR : 0 < m.gasConstant) (h2 o2 : S) (hne : o2 ≠ h2)
    (φ : ℝ) (hφ : 0 ≤ φ) (q : IgmComplete d S) (hq : Fuelable m h2 o2 φ q) : valveFuel m h2 o2 φ s' (valveFuel m h2 o2 φ s q) = valveFuel m h2 o2 φ s q :=
  (valveFuel_again m s s' hs hs' hM hR h2 o2 hne φ hφ q hq.density hq.species hq.moles hq.pressure hq.temperature).2

/-- **C180 (the mass flow is not the required one).** If the valve is open for air, the mass flux of the ghost cell changes by the ratio of the densities of air at 300 K and of the replaced
gas at the same pressure: the flux `ρ u` that the mass flow boundary has chosen is kept only if the replaced gas has the molar mass of air for each 300 K of its temperature. -/
theorem valve_changes_massflow (m : Mechanism S ℝ) (s : ReactorState S ℝ) (hs : Cached m s) (hM : ∀ i, 0 < m.molarMass i) (hR : 0 < m.gasConstant) (air X : S → ℝ) (ha : ∀ i, 0 ≤ air i)
    (h1 : ∑ i, air i = 1) (hX : ∀ i, 0 ≤ X i) (hX1 : ∑ i, X i = 1) (T p : ℝ) (hT : 0 < T) (hp : 0 < p) (v : Fin d → ℝ) (q : IgmComplete d S) (hq : MixtureAt m X T p v q) (i : Fin d) :
    (valveAir m air s q).momentum i = q.momentum i * ((∑ j, air j * m.molarMass j) / 300 / ((∑ j, X j * m.molarMass j) / T)) ∧
    (v i ≠ 0 → ((valveAir m air s q).momentum i = q.momentum i ↔ (∑ j, air j * m.molarMass j) / 300 = (∑ j, X j * m.molarMass j) / T)) := by
  obtain ⟨c1, c2, c3, c4, c5, c6⟩ := hq.content hM hR hX hX1 hT hp
  have h := valveAir_spec m s hs hM hR air ha h1 q (by rw [c3]; exact hp)
  have hA := moleSum_pos m hM air ha (by rw [h1]; exact one_pos)
  have hW := moleSum_pos m hM X hX (by rw [hX1]; exact one_pos)
  rw [funext c4, c3] at h
  have e1 := h.1.momentum i
  have e2 := hq.1.momentum i
  generalize (∑ j, air j * m.molarMass j) = A at *
  generalize (∑ j, X j * m.molarMass j) = W at *
  have e : (valveAir m air s q).momentum i = q.momentum i * (A / 300 / (W / T)) := by
    rw [e1, e2]; field_simp
  refine ⟨e, fun hv => ?_⟩
  have hm : q.momentum i ≠ 0 := by
    rw [e2]; exact mul_ne_zero (by positivity) hv
  have hWT : W / T ≠ 0 := by positivity
  rw [e, mul_eq_left₀ hm, div_eq_one_iff_eq hWT]

/-! ## Which cells -/

theorem ghost_cells_lower (g : Geom n) (ngrow : Int) (valid : IndexBox n) (p : PatchTiles n) (hp : IsPatch g ngrow valid p) (dir : Fin n) (side : Int) (hside : side = 0 ∨ side = 1) :
    (∀ q ∈ ghostCopies p.tiles (sideBoxes (boxDiff (g.grown ngrow) g.domain) g.domain dir side ngrow) (fun _ i => i), q.1 ∈ p.fab.toSet) ∧
    ∀ x : Index n, (∃ q ∈ ghostCopies p.tiles (sideBoxes (boxDiff (g.grown ngrow) g.domain) g.domain dir side ngrow) (fun _ i => i), q.1 = x) ↔
      x ∈ p.fab.toSet ∧ g.periodic dir = false ∧ Beyond g.domain dir side x ∧
      ∀ d, d ≠ dir → (dir < d → g.domain.lower d ≤ x d ∧ x d < g.domain.upper d) ∧ (d < dir → (g.grown ngrow).lower d ≤ x d ∧ x d < (g.grown ngrow).upper d) := by
  have hn := hp.ngrow_nonneg
  obtain ⟨h1, h2⟩ := ghost_copies g ngrow valid p hp dir side hside g.domain (fun _ => ⟨le_refl _, le_refl _⟩)
    (fun d => by simp only [Geom.grown]; split_ifs <;> constructor <;> omega) ⟨rfl, rfl⟩ (fun _ i => i) id (fun _ _ _ _ _ _ _ => rfl) (fun _ hx _ => hx)
  exact ⟨fun q hq => (h1 q hq).2.1, h2⟩

/-- **C181 (which cells).** The mass flow boundary stores the state in the ghost cells beyond the side, within the domain with respect to the later directions and within the grown domain
with respect to the earlier directions, and changes no other cell. -/
theorem massflowStore_cells {α : Type*} (g : Geom n) (ngrow : Int) (valid : IndexBox n) (p : PatchTiles n) (hp : IsPatch g ngrow valid p) (dir : Fin n) (side : Int) (hside : side = 0 ∨ side = 1)
    (state : α) (data : Index n → α) :
    ∃ data', massflowStore g ngrow dir side state p data = some data' ∧ ∀ x, data' x =
      open Classical in if x ∈ p.fab.toSet ∧ g.periodic dir = false ∧ Beyond g.domain dir side x ∧
        (∀ d, d ≠ dir → (dir < d → g.domain.lower d ≤ x d ∧ x d < g.domain.upper d) ∧ (d < dir → (g.grown ngrow).lower d ≤ x d ∧ x d < (g.grown ngrow).upper d)) then state else data x := by
  have hn := hp.ngrow_nonneg
  exact ghost_fill g ngrow valid p hp dir side hside g.domain (fun _ => ⟨le_refl _, le_refl _⟩) (fun d => by simp only [Geom.grown]; split_ifs <;> constructor <;> omega) ⟨rfl, rfl⟩
    (fun _ => state) (fun _ i => i) id (fun _ _ _ _ _ _ _ => rfl) (fun _ hx _ => hx) (fun _ => True) (fun _ _ _ => ⟨trivial, Or.inr fun _ _ => rfl⟩) data

/-- The loops replace the states of the visited cells, once or several times, if the assertions hold; then each cell has the state after one replacement. -/
theorem replaceCells_spec (fab : IndexBox n) (f : IgmComplete d S → IgmComplete d S) (good : IgmComplete d S → Prop)
    (hg : ∀ q, good q → 0 < q.density ∧ 0 < q.pressure ∧ 0 < q.temperature) (hf : ∀ q, good q → good (f q) ∧ f (f q) = f q) :
    ∀ (W : List (Index n)) (data : Index n → IgmComplete d S), (∀ x ∈ W, x ∈ fab.toSet ∧ good (data x)) →
      ∃ data', replaceCells fab f W data = some data' ∧ (∀ x ∈ W, data' x = f (data x)) ∧ ∀ x, x ∉ W → data' x = data x := by
  intro W
  induction W with
  | nil => intro data _; exact ⟨data, rfl, by simp, by simp⟩
  | cons y ys ih =>
    intro data h
    obtain ⟨h1, h2⟩ := h y (by simp)
    obtain ⟨data', hr, ha, hb⟩ := ih (Function.update data y (f (data y))) (fun x hx => by
      refine ⟨(h x (by simp [hx])).1, ?_⟩
      by_cases e : x = y
      · subst e; rw [Function.update_self]; exact (hf _ h2).1
      · rw [Function.update_of_ne e]; exact (h x (by simp [hx])).2)
    refine ⟨data', ?_, fun x hx => ?_, fun x hx => ?_⟩
    · rw [replaceCells, if_pos ⟨(contains_iff fab y).2 h1, hg _ h2⟩, hr]
    · by_cases hxy : x ∈ ys
      · rw [ha x hxy]
        by_cases e : x = y
        · subst e; rw [Function.update_self]; exact (hf _ h2).2
        · rw [Function.update_of_ne e]
      · have e : x = y := by rcases List.mem_cons.1 hx with e | e; exacts [e, absurd e hxy]
        rw [hb x hxy, e, Function.update_self]
    · rw [List.mem_cons, not_or] at hx
      rw [hb x hx.2, Function.update_of_ne hx.1]

/-- An assertion fails at a visited cell with vanishing density, if no visited cell before it can change it. -/
theorem replaceCells_empty (fab : IndexBox n) (f : IgmComplete d S → IgmComplete d S) :
    ∀ (W : List (Index n)) (data : Index n → IgmComplete d S) (x : Index n), x ∈ W → (data x).density ≤ 0 → replaceCells fab f W data = none := by
  intro W
  induction W with
  | nil => simp
  | cons y ys ih =>
    intro data x hx h0
    rw [replaceCells]
    split_ifs with hc
    · have e : x ≠ y := by rintro rfl; exact absurd hc.2.1 (not_lt.2 h0)
      have : x ∈ ys := by rcases List.mem_cons.1 hx with h | h; exacts [absurd h e, h]
      exact ih _ x this (by rw [Function.update_of_ne e]; exact h0)
    · rfl

/-! ## The mass flow boundary -/

/-- **C181 (state).** For every inner state of a mixture: the ghost cell has the density, the composition and the temperature of the inner state and no transversal velocity; at a lower boundary
the flux of mass between ghost cell and inner cell is the required one, unless an outflow faster than sound is required that the inner state does not supply. -/
theorem massflowGhost_spec (m : Mechanism S ℝ) (s : ReactorState S ℝ) (hs : Cached m s) (massflow area : ℝ) (harea : area ≠ 0) (dir : Fin d) (ρ : ℝ) (hρ : 0 < ρ) (v : Fin d → ℝ) (Y : S → ℝ)
    (hY : ∀ i, 0 ≤ Y i) (hY1 : ∑ i, Y i = 1) (T : ℝ) (q : IgmComplete d S) (hq : IsMixture m ρ v Y T q) (ha : 0 < q.speedOfSound) (side : Int) :
    ∃ w : ℝ, IsMixture m ρ (fun i => if i = dir then w else 0) Y T (massflowGhost m massflow area dir side q s) ∧
      (side = 0 → (-1 < massflow / area / (ρ * q.speedOfSound) ∨ v dir / q.speedOfSound ≤ massflow / area / (ρ * q.speedOfSound)) →
        hllMass (w / q.speedOfSound) (v dir / q.speedOfSound) * (ρ * q.speedOfSound) * area = massflow) := by
  set a := q.speedOfSound with hadef
  set f := massflow / area / (ρ * a) with hf
  refine ⟨(if side = 0 then massflowVelocity0 f (v dir / a) else massflowVelocity1 f (v dir / a)) * a, ?_, fun h0 hc => ?_⟩
  · have hu : q.momentum dir / q.density = v dir := by
      rw [hq.momentum, hq.density]; field_simp
    have hsp : q.species = fun i => ρ * Y i := funext hq.species
    have hmf : ((s.setDensity ρ).setMassFractions m (fun i => ρ * Y i)).massFractions = Y := set_mass_fractions_densities m _ ρ Y hρ hY hY1
    have hc : Cached m ((s.setDensity ρ).setMassFractions m (fun i => ρ * Y i)) := hs
    have e := setTemperature_fields m _ T hc
    obtain ⟨hc2, ht2, ht2'⟩ := updateThermo_cached m T ({ ((s.setDensity ρ).setMassFractions m (fun i => ρ * Y i)) with temperature := T } : ReactorState S ℝ) hc
    have key := igm_complete_from_reactor m ((((s.setDensity ρ).setMassFractions m (fun i => ρ * Y i))).setTemperature m T)
      (fun i : Fin d => if i = dir then (if side = 0 then massflowVelocity0 f (v dir / a) else massflowVelocity1 f (v dir / a)) * a else 0) hc2 (ht2.trans ht2'.symm) (by
        rw [e]; exact hρ.ne')
    have e1 : ((((s.setDensity ρ).setMassFractions m (fun i => ρ * Y i))).setTemperature m T).density = ρ := by rw [e]; rfl
    have e2 : ((((s.setDensity ρ).setMassFractions m (fun i => ρ * Y i))).setTemperature m T).massFractions = Y := by rw [e]; exact hmf
    have e3 : ((((s.setDensity ρ).setMassFractions m (fun i => ρ * Y i))).setTemperature m T).temperature = T := by rw [e]
    rw [e1, e2, e3] at key
    have hg : massflowGhost m massflow area dir side q s = igmCompleteFromReactor m ((((s.setDensity ρ).setMassFractions m (fun i => ρ * Y i))).setTemperature m T)
        (fun i : Fin d => if i = dir then (if side = 0 then massflowVelocity0 f (v dir / a) else massflowVelocity1 f (v dir / a)) * a else 0) := by
      unfold massflowGhost
      rw [hu, hsp, hq.temperature, hq.density]
    rw [hg]
    exact key
  · have ha' := ha.ne'
    rw [if_pos h0, mul_div_assoc, div_self ha', mul_one, massflow_left_partial f (v dir / a) hc, hf]
    field_simp

/-- **C181 (a level without cells in the box).** The box of the options is the same on every level, it is not refined. If no cell of a level lies in it, nothing is written into the ghost cells. -/
theorem massflow_unfilled (m : Mechanism S ℝ) (s : ReactorState S ℝ) (o : MassflowOptions n) (g : Geom n) (ngrow : Int) (level : Index n → IgmComplete n S) (ranks : List (List (IndexBox n)))
    (p : PatchTiles n) (data : Index n → IgmComplete n S) (h : ∀ t ∈ ranks.flatten, Disjoint o.box.toSet t.toSet) : massflowFill m s o g ngrow level ranks p data = some data := by
  have hv : visited o.box ranks.flatten = [] := by
    rw [List.eq_nil_iff_forall_not_mem]
    intro i hi
    obtain ⟨h1, t, ht, h2⟩ := (mem_visited _ _ _).1 hi
    exact Set.disjoint_left.1 (h t ht) h1 h2
  have h0 : (igmAverage (fun i => (level i).toIgmCons) o.box ranks).density = 0 := by
    simp [igmAverage, average_visited, hv]
  simp only [massflowFill, h0, lt_self_iff_false, if_false]

/-- **C181 (a level that covers a part of the box).** If the cells of a level cover the fraction `c` of the box, then in a uniform gas the mean density, momentum, energy and partial densities
are too small by this factor, and with them the density of the ghost cells. -/
theorem massflow_partly_covered (u : IgmCons d S) (box : IndexBox n) (ranks : List (List (IndexBox n))) (h : TilesDisjoint ranks.flatten) :
    let c : ℝ := (visited box ranks.flatten).toFinset.card / box.finset.card
    igmAverage (fun _ => u) box ranks = ⟨u.density * c, fun k => u.momentum k * c, u.energy * c, fun k => u.species k * c⟩ := by
  simp only [igmAverage, average_uncovered _ box ranks h]

/-- **C181 (another region on each level).** The same physical field, the coordinate of the cell centre, and the same options: on a level with half the cell width the average belongs to the
first half of the region. -/
theorem massflow_box_not_refined :
    averageState (fun i : Index 1 => (((i 0 : ℤ) : ℚ) + 1 / 2) * 1) ⟨![0], ![4]⟩ [[⟨![0], ![8]⟩]] = 2 ∧
    averageState (fun i : Index 1 => (((i 0 : ℤ) : ℚ) + 1 / 2) * (1 / 2)) ⟨![0], ![4]⟩ [[⟨![0], ![16]⟩]] = 1 := by
  constructor <;> decide +kernel

/-- **C181 (filled).** On a level whose cells cover the box, with a positive mean density: if the temperature iteration succeeds, the ghost cells beyond the side have the boundary state of the mean state. -/
theorem massflow_filled (m : Mechanism S ℝ) (s : ReactorState S ℝ) (o : MassflowOptions n) (hside : o.side = 0 ∨ o.side = 1) (g : Geom n) (ngrow : Int) (level : Index n → IgmComplete n S)
    (ranks : List (List (IndexBox n))) (hd : TilesDisjoint ranks.flatten) (hc : TilesCover o.box ranks.flatten) (valid : IndexBox n) (p : PatchTiles n) (hp : IsPatch g ngrow valid p)
    (data : Index n → IgmComplete n S) (r : ReactorState S ℝ × IgmComplete n S) (hpos : 0 < ∑ i ∈ o.box.finset, (level i).density)
    (hr : ∀ c : IgmCons n S, c.density = (∑ i ∈ o.box.finset, (level i).density) / o.box.finset.card → (∀ k, c.momentum k = (∑ i ∈ o.box.finset, (level i).momentum k) / o.box.finset.card) →
      c.energy = (∑ i ∈ o.box.finset, (level i).energy) / o.box.finset.card → (∀ k, c.species k = (∑ i ∈ o.box.finset, (level i).species k) / o.box.finset.card) →
      igmCompleteFromCons m s c = some r) :
    ∃ data', massflowFill m s o g ngrow level ranks p data = some data' ∧ ∀ x, data' x =
      open Classical in if x ∈ p.fab.toSet ∧ g.periodic o.dir = false ∧ Beyond g.domain o.dir o.side x ∧
        (∀ d, d ≠ o.dir → (o.dir < d → g.domain.lower d ≤ x d ∧ x d < g.domain.upper d) ∧ (d < o.dir → (g.grown ngrow).lower d ≤ x d ∧ x d < (g.grown ngrow).upper d))
      then massflowGhost m o.massflow o.area o.dir o.side r.2 r.1 else data x := by
  have hne : o.box.finset.Nonempty := by
    by_contra h
    rw [Finset.not_nonempty_iff_eq_empty] at h
    simp [h] at hpos
  have hmean : 0 < (igmAverage (fun i => (level i).toIgmCons) o.box ranks).density := by
    simp only [igmAverage, average_mean _ o.box ranks hd hc]
    exact div_pos hpos (by exact_mod_cast hne.card_pos)
  have hr' := hr (igmAverage (fun i => (level i).toIgmCons) o.box ranks) (average_mean _ _ _ hd hc) (fun k => average_mean _ _ _ hd hc) (average_mean _ _ _ hd hc) (fun k => average_mean _ _ _ hd hc)
  obtain ⟨data', h1, h2⟩ := massflowStore_cells g ngrow valid p hp o.dir o.side hside (massflowGhost m o.massflow o.area o.dir o.side r.2 r.1) data
  exact ⟨data', by simp only [massflowFill, if_pos hmean, hr', Option.bind_some, h1], h2⟩

/-! ## The pressure valve -/

theorem mem_valveCells (g : Geom 1) (ngrow : Int) (valid : IndexBox 1) (p : PatchTiles 1) (hp : IsPatch g ngrow valid p) (x : Index 1) :
    x ∈ valveCells g ngrow p ↔ x ∈ p.fab.toSet ∧ g.periodic 0 = false ∧ x 0 < g.domain.lower 0 := by
  have h := (ghost_cells_lower g ngrow valid p hp 0 0 (Or.inl rfl)).2 x
  simp only [valveCells, List.mem_map]
  rw [h]
  constructor
  · rintro ⟨h1, h2, h3, -⟩
    refine ⟨h1, h2, ?_⟩
    rcases h3 with h3 | h3
    · exact h3.2
    · exact absurd h3.1 (by norm_num)
  · rintro ⟨h1, h2, h3⟩
    exact ⟨h1, h2, Or.inl ⟨rfl, h3⟩, fun d hd => absurd (Subsingleton.elim d 0) hd⟩

/-- **C180 (the boundary).** For every history of the valve and of the reactor, every patch and tiling: an evaluation of the boundary advances the valve by one step, and if the mass flow boundary
fills the lower ghost cells with the state `b`, they contain afterwards air at 300 K with pressure and velocity of `b`, or the gas of `b` with fuel, according to the new state of the valve. No other cell is changed. -/
theorem pressureValve_fill [DecidableEq S] (m : Mechanism S ℝ) (s : ReactorState S ℝ) (hs : Cached m s) (hM : ∀ i, 0 < m.molarMass i) (hR : 0 < m.gasConstant) (o : PressureValveParams S)
    (ha : ∀ i, 0 ≤ o.air i) (h1 : ∑ i, o.air i = 1) (hne : o.o2 ≠ o.h2) (hφ : 0 ≤ o.equivalence) (g : Geom 1) (ngrow : Int) (hper : g.periodic 0 = false)
    (hb : boxDiff (g.grown ngrow) g.domain ≠ []) (level : Index 1 → IgmComplete 1 S) (ranks : List (List (IndexBox 1))) (valid : IndexBox 1) (p : PatchTiles 1) (hp : IsPatch g ngrow valid p)
    (v : Valve ℝ) (t pr : ℝ) (data mid : Index 1 → IgmComplete 1 S) (b : IgmComplete 1 S) (hgood : Fuelable m o.h2 o.o2 o.equivalence b)
    (hmf : massflowFill m s o.massflow g ngrow level ranks p data = some mid) (hmid : ∀ x, x ∈ p.fab.toSet → x 0 < g.domain.lower 0 → mid x = b)
    (hmid' : ∀ x, ¬(x ∈ p.fab.toSet ∧ x 0 < g.domain.lower 0) → mid x = data x) :
    let r := pressureValveFill m s o g ngrow level ranks p v t pr data
    r.1 = changeState o.valve v t pr ∧ ∃ data', r.2 = some data' ∧
      (∀ x, x ∈ p.fab.toSet → x 0 < g.domain.lower 0 →
        (r.1.state = .openAir ∧ MixtureAt m o.air 300 b.pressure (fun i => b.momentum i / b.density) (data' x)) ∨
        (r.1.state = .openFuel ∧
          MixtureAt m (moleFractionsOf (withFuel o.h2 o.o2 o.equivalence (amounts m b))) b.temperature b.pressure (fun i => b.momentum i / b.density) (data' x))) ∧
      ∀ x, ¬(x ∈ p.fab.toSet ∧ x 0 < g.domain.lower 0) → data' x = data x := by
  have hW := mem_valveCells g ngrow valid p hp
  have hmem : ∀ x, x ∈ valveCells g ngrow p ↔ x ∈ p.fab.toSet ∧ x 0 < g.domain.lower 0 := fun x => by rw [hW]; simp [hper]
  obtain ⟨dA, rA, aA, bA⟩ := replaceCells_spec p.fab (valveAir m o.air s) (fun q : IgmComplete 1 S => 0 < q.density ∧ 0 < q.pressure ∧ 0 < q.temperature) (fun _ h => h)
    (fun q h => by
      have hspec := valveAir_spec m s hs hM hR o.air ha h1 q h.2.1
      obtain ⟨c1, c2, c3, -⟩ := hspec.content hM hR ha h1 (by norm_num) h.2.1
      exact ⟨⟨c1, by rw [c3]; exact h.2.1, by rw [c2]; norm_num⟩, valveAir_twice m s s hs hs hM hR o.air ha h1 q h.2.1⟩)
    (valveCells g ngrow p) mid (fun x hx => by
      obtain ⟨h2, h3⟩ := (hmem x).1 hx
      rw [hmid x h2 h3]
      exact ⟨h2, hgood.density, hgood.pressure, hgood.temperature⟩)
  obtain ⟨dF, rF, aF, bF⟩ := replaceCells_spec p.fab (valveFuel m o.h2 o.o2 o.equivalence s) (Fuelable m o.h2 o.o2 o.equivalence) (fun _ h => ⟨h.density, h.pressure, h.temperature⟩)
    (fun q h => valveFuel_again m s s hs hs hM hR o.h2 o.o2 hne o.equivalence hφ q h.density h.species h.moles h.pressure h.temperature)
    (valveCells g ngrow p) mid (fun x hx => by
      obtain ⟨h2, h3⟩ := (hmem x).1 hx
      rw [hmid x h2 h3]
      exact ⟨h2, hgood⟩)
  have hcl := (valve_transitions o.valve v t pr).1
  intro r
  have hr : r = pressureValveFill m s o g ngrow level ranks p v t pr data := rfl
  unfold pressureValveFill at hr
  rw [if_neg hb] at hr
  simp only [hmf, Option.bind_some, rA, rF] at hr
  have hr1 : r.1 = changeState o.valve v t pr := by rw [hr]
  refine ⟨hr1, ?_⟩
  rw [hr1]
  cases hst : (changeState o.valve v t pr).state with
  | closed => exact absurd hst hcl
  | openAir =>
    refine ⟨dA, by rw [hr]; simp only [hst], fun x h2 h3 => Or.inl ⟨rfl, ?_⟩, fun x hx => ?_⟩
    · rw [aA x ((hmem x).2 ⟨h2, h3⟩), hmid x h2 h3]
      exact valveAir_spec m s hs hM hR o.air ha h1 b hgood.pressure
    · rw [bA x (fun h => hx ((hmem x).1 h)), hmid' x hx]
  | openFuel =>
    refine ⟨dF, by rw [hr]; simp only [hst], fun x h2 h3 => Or.inr ⟨rfl, ?_⟩, fun x hx => ?_⟩
    · rw [aF x ((hmem x).2 ⟨h2, h3⟩), hmid x h2 h3]
      exact valveFuel_spec m s hs hM hR o.h2 o.o2 o.equivalence hφ b hgood.density hgood.species hgood.moles hgood.pressure hgood.temperature
    · rw [bF x (fun h => hx ((hmem x).1 h)), hmid' x hx]

/-- **C180 (unfilled ghost cells).** If the mass flow boundary does not write the lower ghost cells (no cell of the level lies in its box), and a lower ghost cell of the patch holds no density yet,
the evaluation runs into a failing assertion, whatever the valve does. -/
theorem pressureValve_unfilled [DecidableEq S] (m : Mechanism S ℝ) (s : ReactorState S ℝ) (o : PressureValveParams S) (g : Geom 1) (ngrow : Int) (hper : g.periodic 0 = false)
    (hb : boxDiff (g.grown ngrow) g.domain ≠ []) (level : Index 1 → IgmComplete 1 S) (ranks : List (List (IndexBox 1))) (valid : IndexBox 1) (p : PatchTiles 1) (hp : IsPatch g ngrow valid p)
    (hbox : ∀ t ∈ ranks.flatten, Disjoint o.massflow.box.toSet t.toSet) (v : Valve ℝ) (t pr : ℝ) (data : Index 1 → IgmComplete 1 S) (x : Index 1) (hx : x ∈ p.fab.toSet) (hx0 : x 0 < g.domain.lower 0)
    (h0 : (data x).density ≤ 0) : (pressureValveFill m s o g ngrow level ranks p v t pr data).2 = none := by
  have hmem := (mem_valveCells g ngrow valid p hp x).2 ⟨hx, hper, hx0⟩
  have hcl := (valve_transitions o.valve v t pr).1
  unfold pressureValveFill
  rw [if_neg hb]
  simp only [massflow_unfilled m s o.massflow g ngrow level ranks p data hbox, Option.bind_some]
  cases hst : (changeState o.valve v t pr).state with
  | closed => exact absurd hst hcl
  | openAir => exact replaceCells_empty _ _ _ _ x hmem h0
  | openFuel => exact replaceCells_empty _ _ _ _ x hmem h0

/-- **C180 (periodic).** Without a boundary neither the valve nor the data change. -/
theorem pressureValve_no_boundary [DecidableEq S] (m : Mechanism S ℝ) (s : ReactorState S ℝ) (o : PressureValveParams S) (g : Geom 1) (ngrow : Int) (hb : boxDiff (g.grown ngrow) g.domain = [])
    (level : Index 1 → IgmComplete 1 S) (ranks : List (List (IndexBox 1))) (p : PatchTiles 1) (v : Valve ℝ) (t pr : ℝ) (data : Index 1 → IgmComplete 1 S) :
    pressureValveFill m s o g ngrow level ranks p v t pr data = (v, some data) := by
  unfold pressureValveFill; rw [if_pos hb]

/-- **C180 (a tube with resting or flowing gas).** Take the Burke 2012 mechanism, any history of the reactor and any tube on whose level every cell holds the same mixture with oxygen, between 300 K and
2500 K (outside of one kelvin around the seam of the tables). Then the boundary does not fail: with a velocity `w`, a temperature `T'` within half a millikelvin and a pressure `p'` within `4.2 ρ` Pa of those of the gas, the
lower ghost cells contain air at 300 K or fuelled gas with temperature `T'`, with pressure `p'` and velocity `w`. -/
theorem valve_uniform_gas (s : ReactorState BSp ℝ) (hs : Cached burkeReactor s) (o : PressureValveParams BSp) (ha : ∀ i, 0 ≤ o.air i) (h1 : ∑ i, o.air i = 1) (hne : o.o2 ≠ o.h2)
    (hφ : 0 ≤ o.equivalence) (hside : o.massflow.side = 0) (harea : o.massflow.area ≠ 0) (g : Geom 1) (ngrow : Int) (hper : g.periodic 0 = false) (hb : boxDiff (g.grown ngrow) g.domain ≠ []) (ranks : List (List (IndexBox 1)))
    (hd : TilesDisjoint ranks.flatten) (hc : TilesCover o.massflow.box ranks.flatten) (hbox : o.massflow.box.toSet.Nonempty) (valid : IndexBox 1) (p : PatchTiles 1) (hp : IsPatch g ngrow valid p)
    (ρ : ℝ) (hρ : 0 < ρ) (u : Fin 1 → ℝ) (Y : BSp → ℝ) (hY : ∀ i, 0 ≤ Y i) (hY1 : ∑ i, Y i = 1) (hO : 0 < Y o.o2) (T : ℝ) (hT1 : 300 ≤ T) (hT2 : T ≤ 2500) (hseam : T ≤ 999 ∨ 1001 ≤ T)
    (q : IgmComplete 1 BSp) (hq : IsMixture burkeReactor ρ u Y T q) (v : Valve ℝ) (t pr : ℝ) (data : Index 1 → IgmComplete 1 BSp) :
    ∃ (w T' p' : ℝ) (data' : Index 1 → IgmComplete 1 BSp), |T' - T| ≤ 5e-4 ∧ |p' - q.pressure| ≤ 4.2 * ρ ∧
      pressureValveFill burkeReactor s o g ngrow (fun _ => q) ranks p v t pr data = (changeState o.valve v t pr, some data') ∧
      (∀ x, x ∈ p.fab.toSet → x 0 < g.domain.lower 0 →
        ((changeState o.valve v t pr).state = .openAir ∧ MixtureAt burkeReactor o.air 300 p' (fun _ => w) (data' x)) ∨
        ((changeState o.valve v t pr).state = .openFuel ∧
          MixtureAt burkeReactor (moleFractionsOf (withFuel o.h2 o.o2 o.equivalence fun i => ρ * Y i / burkeReactor.molarMass i)) T' p' (fun _ => w) (data' x))) ∧
      ∀ x, ¬(x ∈ p.fab.toSet ∧ x 0 < g.domain.lower 0) → data' x = data x := by
  obtain ⟨s', q', hret, hmix, has, e1, e2, e3, e4, e5, -⟩ := igm_round_trip_partial s hs ρ hρ u Y hY hY1 T hT1 hT2 hseam q hq
  have hM : ∀ i, 0 < burkeReactor.molarMass i := fun i => by
    show 0 < ((burkeMolarMass i : ℝ))
    cases i <;> norm_num [burkeMolarMass]
  have hR : 0 < burkeReactor.gasConstant := by show (0 : ℝ) < 8314.462175; norm_num
  have hs' : Cached burkeReactor s' ∧ q'.speedOfSound = igmSpeedOfSound burkeReactor s' := by
    have hl := (igmLoad_spec burkeReactor q.toIgmCons s hs).1
    unfold igmCompleteFromCons ReactorState.setInternalEnergy at hret
    obtain ⟨sT, hsT, hx⟩ := Option.map_eq_some_iff.mp hret
    obtain ⟨T0, -, hsT⟩ := Option.map_eq_some_iff.mp hsT
    have hq1 : sT = s' := congrArg Prod.fst hx
    have hq2 : igmCompleteFromReactor burkeReactor sT (igmVelocity q.toIgmCons) = q' := congrArg Prod.snd hx
    have hf := setTemperature_fields burkeReactor _ T0 hl
    rw [hsT, hq1] at hf
    refine ⟨by rw [hf]; exact ⟨rfl, rfl⟩, ?_⟩
    rw [← hq2, hq1]
    rfl
  have hTq : 0 < q'.temperature := by
    have := (abs_le.1 e4).1
    rw [hq.temperature] at this
    norm_num at this
    linarith
  have hmass : 0 < ∑ i, Y i / burkeReactor.molarMass i :=
    Finset.sum_pos' (fun i _ => div_nonneg (hY i) (hM i).le) ⟨o.o2, Finset.mem_univ _, div_pos hO (hM _)⟩
  have hpq : 0 < q'.pressure := by
    rw [hmix.pressure]; exact mul_pos (mul_pos (mul_pos hρ hR) hTq) hmass
  have hsound : 0 < q'.speedOfSound := by rw [hs'.2]; exact has.2.2.2
  obtain ⟨w, hw, hflux⟩ := massflowGhost_spec burkeReactor s' hs'.1 o.massflow.massflow o.massflow.area harea o.massflow.dir ρ hρ u Y hY hY1 q'.temperature q' hmix hsound o.massflow.side
  set b := massflowGhost burkeReactor o.massflow.massflow o.massflow.area o.massflow.dir o.massflow.side q' s' with hbdef
  have hdir : ∀ k : Fin 1, k = o.massflow.dir := fun k => Subsingleton.elim _ _
  have hbp : b.pressure = q'.pressure := by rw [hw.pressure, hmix.pressure]
  have hcard : (0 : ℝ) < o.massflow.box.finset.card := by
    obtain ⟨x, hx⟩ := hbox
    exact_mod_cast Finset.card_pos.2 ⟨x, (mem_finset _ _).2 hx⟩
  obtain ⟨mid, hmf, hmid⟩ := massflow_filled burkeReactor s o.massflow (Or.inl hside) g ngrow (fun _ => q) ranks hd hc valid p hp data (s', q')
    (by simp only [Finset.sum_const, nsmul_eq_mul, hq.density]; positivity)
    (fun c h1 h2 h3 h4 => by
      have : c = q.toIgmCons := by
        simp only [Finset.sum_const, nsmul_eq_mul, mul_div_cancel_left₀ _ hcard.ne'] at h1 h2 h3 h4
        cases c
        simp only at h1 h2 h3 h4
        have h2' := funext h2
        have h4' := funext h4
        subst h1 h3
        rw [h2', h4']
      rw [this, hret])
  have hgood : Fuelable burkeReactor o.h2 o.o2 o.equivalence b := by
    refine ⟨by rw [hw.density]; exact hρ, by rw [hbp]; exact hpq, by rw [hw.temperature]; exact hTq, fun i => by rw [hw.species]; exact mul_nonneg hρ.le (hY i), ?_⟩
    have hx : ∀ i, amounts burkeReactor b i = ρ * Y i / burkeReactor.molarMass i := fun i => by rw [amounts, hw.species]
    have hx0 : ∀ i, 0 ≤ amounts burkeReactor b i := fun i => by rw [hx]; exact div_nonneg (mul_nonneg hρ.le (hY i)) (hM i).le
    refine Finset.sum_pos' (fun i _ => ?_) ⟨o.o2, Finset.mem_univ _, ?_⟩
    · unfold withFuel
      split_ifs
      · exact mul_nonneg (mul_nonneg (by norm_num) hφ) (hx0 _)
      · exact hx0 i
    · unfold withFuel
      rw [if_neg hne, hx]
      exact div_pos (mul_pos hρ hO) (hM _)
  have hcell : ∀ x, (x ∈ p.fab.toSet ∧ g.periodic o.massflow.dir = false ∧ Beyond g.domain o.massflow.dir o.massflow.side x ∧
        (∀ d, d ≠ o.massflow.dir → (o.massflow.dir < d → g.domain.lower d ≤ x d ∧ x d < g.domain.upper d) ∧ (d < o.massflow.dir → (g.grown ngrow).lower d ≤ x d ∧ x d < (g.grown ngrow).upper d))) ↔
      x ∈ p.fab.toSet ∧ x 0 < g.domain.lower 0 := fun x => by
    rw [← hdir 0, hside]
    constructor
    · rintro ⟨h2, -, h3, -⟩
      rcases h3 with h3 | h3
      · exact ⟨h2, h3.2⟩
      · exact absurd h3.1 (by norm_num)
    · rintro ⟨h2, h3⟩
      exact ⟨h2, hper, Or.inl ⟨rfl, h3⟩, fun d hd => absurd (Subsingleton.elim d 0) hd⟩
  obtain ⟨r1, data', r2, r3, r4⟩ := pressureValve_fill burkeReactor s hs hM hR o ha h1 hne hφ g ngrow hper hb (fun _ => q) ranks valid p hp v t pr data mid b hgood hmf
    (fun x h2 h3 => by rw [hmid x, if_pos ((hcell x).2 ⟨h2, h3⟩)])
    (fun x hx => by rw [hmid x, if_neg (fun h => hx ((hcell x).1 h))])
  have hvel : (fun i => b.momentum i / b.density) = fun _ : Fin 1 => w := funext fun i => by
    rw [hw.momentum, hw.density, if_pos (hdir i)]; field_simp
  have ham : amounts burkeReactor b = fun i => ρ * Y i / burkeReactor.molarMass i := funext fun i => by rw [amounts, hw.species]
  refine ⟨w, q'.temperature, q'.pressure, data', by rw [← hq.temperature]; exact e4, e5, Prod.ext r1 r2, fun x h2 h3 => ?_, r4⟩
  have := r3 x h2 h3
  rw [r1, hvel, hw.temperature, hbp, ham] at this
  exact this

/-! ## Examples -/

/-- A tube with eight cells in two patches and two ghost cells. -/
def exValveTube : Geom 1 := ⟨⟨![0], ![8]⟩, fun _ => false⟩
/-- Its lower patch. -/
def exTubeValid : IndexBox 1 := ⟨![0], ![4]⟩
/-- The lower patch with its ghost cells, visited in one tile. -/
def exTubePatch : PatchTiles 1 := ⟨⟨fun d => exTubeValid.lower d - 2, fun d => exTubeValid.upper d + 2⟩, [⟨![-2], ![6]⟩]⟩

theorem exTubePatch_isPatch : IsPatch exValveTube 2 exTubeValid exTubePatch where
  ngrow_nonneg := by norm_num
  inside := by decide
  fab_eq := rfl
  cover := by
    intro x
    simp [exTubePatch, exTubeValid, IndexBox.toSet]
  tile := by decide

/-- Air with 21 % oxygen, an open air valve with fuel from the time 1 on, and a box of the first four cells. -/
noncomputable def exValveParams : PressureValveParams BSp where
  valve := ⟨200000, 1, 1⟩
  massflow := ⟨⟨![0], ![4]⟩, 3, 1, 0, 0⟩
  equivalence := 1
  air := fun i => match i with | .N2 => 79 / 100 | .O2 => 21 / 100 | _ => 0
  h2 := .H2
  o2 := .O2

/-- The mass fractions of the gas in the tube: three quarters nitrogen and a quarter oxygen. -/
noncomputable def exTubeY : BSp → ℝ := fun i => match i with | .N2 => 3 / 4 | .O2 => 1 / 4 | _ => 0

theorem sum_BSp (f : BSp → ℝ) : ∑ i, f i = f .N2 + f .AR + f .H + f .O2 + f .O + f .OH + f .H2 + f .H2O + f .HE + f .HO2 + f .H2O2 := by
  show ∑ i ∈ ({.N2, .AR, .H, .O2, .O, .OH, .H2, .H2O, .HE, .HO2, .H2O2} : Finset BSp), f i = _
  repeat rw [Finset.sum_insert (by decide)]
  rw [Finset.sum_singleton]
  ring

/-- A reactor whose tables belong to 300 K. -/
noncomputable def exTubeReactor : ReactorState BSp ℝ :=
  { temperature := 300, thermoTemp := 300, density := 1, massFractions := exTubeY, moles := exTubeY, enthalpies := (burkeReactor.thermo 300).1, heatCapacities := (burkeReactor.thermo 300).2 }

/-- Nitrogen and oxygen with density 1, velocity 5 and 400 K. -/
noncomputable def exTubeGas : IgmComplete 1 BSp :=
  igmCompleteFromReactor burkeReactor ((exTubeReactor.setMassFractions burkeReactor exTubeY).setTemperature burkeReactor 400) fun _ => 5

/-- All hypotheses of `valve_uniform_gas` hold for this gas in the tube `exValveTube`, whatever the ghost cells contained, whatever the state of the valve; two of its ghost cells are cells of the patch. -/
example (v : Valve ℝ) (t pr : ℝ) (data : Index 1 → IgmComplete 1 BSp) :
    (∃ data', (pressureValveFill burkeReactor exTubeReactor exValveParams exValveTube 2 (fun _ => exTubeGas) [[⟨![0], ![4]⟩], [⟨![4], ![8]⟩]] exTubePatch v t pr data).2 = some data') ∧
      ((![-1] : Index 1) ∈ exTubePatch.fab.toSet ∧ (![-1] : Index 1) 0 < exValveTube.domain.lower 0) ∧ (![-2] : Index 1) ∈ exTubePatch.fab.toSet := by
  have hc : Cached burkeReactor exTubeReactor := ⟨rfl, rfl⟩
  have hY : ∀ i, 0 ≤ exTubeY i := fun i => by cases i <;> norm_num [exTubeY]
  have hY1 : ∑ i, exTubeY i = 1 := by rw [sum_BSp]; norm_num [exTubeY]
  have hq : IsMixture burkeReactor 1 (fun _ : Fin 1 => 5) exTubeY 400 exTubeGas := by
    have hmf : (exTubeReactor.setMassFractions burkeReactor exTubeY).massFractions = exTubeY := by
      have := set_mass_fractions_densities burkeReactor exTubeReactor 1 exTubeY one_pos hY hY1
      simpa using this
    have hc1 : Cached burkeReactor (exTubeReactor.setMassFractions burkeReactor exTubeY) := hc
    have e := setTemperature_fields burkeReactor _ 400 hc1
    have key := igm_complete_from_reactor burkeReactor ((exTubeReactor.setMassFractions burkeReactor exTubeY).setTemperature burkeReactor 400) (fun _ : Fin 1 => (5 : ℝ))
      (by rw [e]; exact ⟨rfl, rfl⟩) (by rw [e]) (by rw [e]; exact one_ne_zero)
    have e1 : ((exTubeReactor.setMassFractions burkeReactor exTubeY).setTemperature burkeReactor 400).density = 1 := by rw [e]; rfl
    have e2 : ((exTubeReactor.setMassFractions burkeReactor exTubeY).setTemperature burkeReactor 400).massFractions = exTubeY := by rw [e]; exact hmf
    have e3 : ((exTubeReactor.setMassFractions burkeReactor exTubeY).setTemperature burkeReactor 400).temperature = 400 := by rw [e]
    rw [e1, e2, e3] at key
    exact key
  have hmem : ∀ (b : IndexBox 1) (x : Index 1), x ∈ b.toSet ↔ b.lower 0 ≤ x 0 ∧ x 0 < b.upper 0 := fun b x => by simp [IndexBox.toSet]
  have := valve_uniform_gas exTubeReactor hc exValveParams (fun i => by cases i <;> norm_num [exValveParams]) (by rw [sum_BSp]; norm_num [exValveParams]) (by simp [exValveParams])
    (by norm_num [exValveParams]) rfl (by norm_num [exValveParams]) exValveTube 2 rfl (by decide) [[⟨![0], ![4]⟩], [⟨![4], ![8]⟩]]
    (by
      simp only [TilesDisjoint, List.flatten_cons, List.flatten_nil, List.append_nil, List.singleton_append, List.pairwise_cons, List.mem_singleton, forall_eq, List.not_mem_nil, false_implies, implies_true,
        List.Pairwise.nil, and_true]
      rw [Set.disjoint_left]
      intro x h1 h2
      rw [hmem] at h1 h2
      exact absurd h1.2 (not_lt.2 h2.1))
    (fun x hx => ⟨⟨![0], ![4]⟩, by simp, hx⟩) ⟨![0], by rw [hmem]; simp [exValveParams]⟩ exTubeValid exTubePatch exTubePatch_isPatch 1 one_pos (fun _ => 5) exTubeY hY hY1
    (by norm_num [exValveParams, exTubeY]) 400 (by norm_num) (by norm_num) (Or.inl (by norm_num)) exTubeGas hq v t pr data
  obtain ⟨w, T', p', data', -, -, h, -⟩ := this
  exact ⟨⟨data', by rw [h]⟩, ⟨by rw [hmem]; decide, by decide⟩, by rw [hmem]; decide⟩

/-- The other case: the same tube on a finer level whose only patch starts behind the box, ghost cells that hold no gas. -/
example (v : Valve ℝ) (t pr : ℝ) (zero : IgmComplete 1 BSp) (h0 : zero.density = 0) :
    (pressureValveFill burkeReactor exTubeReactor exValveParams exValveTube 2 (fun _ => exTubeGas) [[⟨![4], ![8]⟩]] exTubePatch v t pr fun _ => zero).2 = none := by
  have hmem : ∀ (b : IndexBox 1) (x : Index 1), x ∈ b.toSet ↔ b.lower 0 ≤ x 0 ∧ x 0 < b.upper 0 := fun b x => by simp [IndexBox.toSet]
  refine pressureValve_unfilled burkeReactor exTubeReactor exValveParams exValveTube 2 rfl (by decide) _ _ exTubeValid exTubePatch exTubePatch_isPatch ?_ v t pr _ ![-1]
    (by rw [hmem]; decide) (by decide) h0.le
  intro b hb
  simp only [List.flatten_cons, List.flatten_nil, List.append_nil, List.mem_singleton] at hb
  subst hb
  rw [Set.disjoint_left]
  intro x h1 h2
  rw [hmem] at h1 h2
  exact absurd h1.2 (not_lt.2 h2.1)

end Fub
