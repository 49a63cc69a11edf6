import Verif.Props.IdealGasMix

/-!
# The kinetic source term of the ideal gas mixture
-/

namespace Fub

section
variable {d : ℕ} {S : Type*} [Fintype S]

/-- The reactor of a cell before the integration. -/
noncomputable def kineticLoad (m : Mechanism S ℝ) (s : ReactorState S ℝ) (q : IgmComplete d S) :
    ReactorState S ℝ :=
  ((s.setMassFractions m q.species).setTemperature m q.temperature).setDensity q.density

theorem kineticLoad_moles (m : Mechanism S ℝ) (s s' : ReactorState S ℝ) (hs : Cached m s)
    (hs' : Cached m s') (q : IgmComplete d S) :
    (kineticLoad m s q).updateMoles m = (kineticLoad m s' q).updateMoles m ∧
    (kineticLoad m s q).density = q.density ∧ (kineticLoad m s q).temperature = q.temperature ∧
    (kineticLoad m s q).massFractions = (s.setMassFractions m q.species).massFractions ∧
    Cached m (kineticLoad m s q) := by
  unfold kineticLoad
  rw [setTemperature_fields m (s.setMassFractions m q.species) q.temperature hs,
    setTemperature_fields m (s'.setMassFractions m q.species) q.temperature hs']
  exact ⟨rfl, rfl, rfl, rfl, ⟨rfl, rfl⟩⟩

theorem kineticCell_eq (m : Mechanism S ℝ) (solver : ℝ → ℝ → (S → ℝ) → OdeRun S ℝ)
    (s : ReactorState S ℝ) (q : IgmComplete d S) :
    kineticCell m solver s q =
      let s1 := kineticLoad m s q
      let s2 := s1.advance m (solver s1.density s1.temperature (s1.updateMoles m).moles)
      (s2, igmCompleteFromReactor m s2 (igmVelocity q.toIgmCons)) := rfl

theorem kinetic_cell_history (m : Mechanism S ℝ) (solver : ℝ → ℝ → (S → ℝ) → OdeRun S ℝ)
    (s s' : ReactorState S ℝ) (hs : Cached m s) (hs' : Cached m s') (q : IgmComplete d S) :
    kineticCell m solver s q = kineticCell m solver s' q ∧ Cached m (kineticCell m solver s q).1 := by
  obtain ⟨h1, h2, h3, -, h5⟩ := kineticLoad_moles m s s' hs hs' q
  obtain ⟨-, k2, k3, -, -⟩ := kineticLoad_moles m s' s hs' hs q
  rw [kineticCell_eq, kineticCell_eq]
  dsimp only
  unfold ReactorState.advance
  rw [h1, h2, h3, k2, k3]
  refine ⟨rfl, ?_⟩
  have hc : Cached m ((kineticLoad m s' q).updateMoles m) := by
    rw [← h1]
    exact h5
  exact stages_cached m _ _ hc

/-- **C130** Each cell is advanced on its own: although one reactor serves all cells, the new state
of a cell is a function of its old state alone. It does not depend on the cells which were advanced
before, on their number or order, or on what the reactor was used for before. -/
theorem kinetic_cells_independent (m : Mechanism S ℝ) (solver : ℝ → ℝ → (S → ℝ) → OdeRun S ℝ)
    (s s0 : ReactorState S ℝ) (hs : Cached m s) (hs0 : Cached m s0) (qs : List (IgmComplete d S)) :
    kineticCells m solver s qs = qs.map (fun q => (kineticCell m solver s0 q).2) := by
  induction qs generalizing s with
  | nil => rfl
  | cons q qs ih =>
    obtain ⟨h1, h2⟩ := kinetic_cell_history m solver s s0 hs hs0 q
    show (kineticCell m solver s q).2 :: kineticCells m solver (kineticCell m solver s q).1 qs = _
    rw [ih _ h2, h1]
    rfl

/-- **C130** What a cell holds afterwards. The solver starts from the density, the temperature and
the concentrations `ρ Y / M` of the cell. Density and momentum are kept exactly. Temperature, partial
densities and pressure are those of the concentrations it returns. The energy is the sum of the
kinetic energy and of the enthalpies at the last temperature `Tl` at which the solver evaluated the
right-hand side, less the pressure. -/
theorem kinetic_cell_result (m : Mechanism S ℝ) (solver : ℝ → ℝ → (S → ℝ) → OdeRun S ℝ)
    (s : ReactorState S ℝ) (hs : Cached m s) (q : IgmComplete d S) (hρ : 0 < q.density)
    (hM : ∀ i, 0 < m.molarMass i) (hpos : ∀ i, 0 ≤ q.species i)
    (hsum : ∑ i, q.species i = q.density) (l : List ℝ) (Tl T : ℝ) (c : S → ℝ)
    (hrun : solver q.density q.temperature (fun i => q.species i / m.molarMass i) = ⟨l ++ [Tl], T, c⟩) :
    let q' := (kineticCell m solver s q).2
    q'.density = q.density ∧ q'.momentum = q.momentum ∧ q'.temperature = T ∧
    (∀ i, q'.species i = c i * m.molarMass i) ∧ q'.pressure = m.gasConstant * T * ∑ i, c i ∧
    q'.energy = ∑ i, c i * m.molarMass i * (m.thermo Tl).1 i - q'.pressure +
      1 / 2 * (∑ i, q.momentum i * q.momentum i) / q.density := by
  intro q'
  obtain ⟨-, h2, h3, h4, h5⟩ := kineticLoad_moles m s s hs hs q
  have hne := ne_of_gt hρ
  have hY : (kineticLoad m s q).massFractions = fun i => q.species i / q.density := by
    rw [h4]
    have hY1 : ∑ i, q.species i / q.density = 1 := by rw [← Finset.sum_div, hsum, div_self hne]
    have := set_mass_fractions_densities m s q.density (fun i => q.species i / q.density) hρ
      (fun i => div_nonneg (hpos i) hρ.le) hY1
    rw [← this]
    congr 2
    funext i
    exact (mul_div_cancel₀ _ hne).symm
  have hmol : ((kineticLoad m s q).updateMoles m).moles = fun i => q.species i / m.molarMass i := by
    funext i
    show (kineticLoad m s q).massFractions i * (kineticLoad m s q).density / m.molarMass i = _
    rw [hY, h2, div_mul_cancel₀ _ hne]
  have hcell : kineticCell m solver s q =
      ((kineticLoad m s q).advance m ⟨l ++ [Tl], T, c⟩,
        igmCompleteFromReactor m ((kineticLoad m s q).advance m ⟨l ++ [Tl], T, c⟩)
          (igmVelocity q.toIgmCons)) := by
    rw [kineticCell_eq]
    dsimp only
    rw [h2, h3, hmol, hrun]
  have hq' : q' = igmCompleteFromReactor m ((kineticLoad m s q).advance m ⟨l ++ [Tl], T, c⟩)
      (igmVelocity q.toIgmCons) := congrArg Prod.snd hcell
  clear_value q'
  set s2 := (kineticLoad m s q).advance m ⟨l ++ [Tl], T, c⟩ with hs2
  have hcache : Cached m s2 := stages_cached m _ ((kineticLoad m s q).updateMoles m) h5
  have htemp : s2.thermoTemp = Tl :=
    stages_thermoTemp m l Tl ((kineticLoad m s q).updateMoles m) h5
  have hdens0 : ∀ (l : List ℝ) (x : ReactorState S ℝ),
      (l.foldl (fun x T => x.updateThermo m T) x).density = x.density := by
    intro l
    induction l with
    | nil => intro x; rfl
    | cons a l ih =>
      intro x
      rw [List.foldl_cons, ih]
      unfold ReactorState.updateThermo
      split_ifs <;> rfl
  have hdens : s2.density = q.density := by
    show ((l ++ [Tl]).foldl (fun (x : ReactorState S ℝ) T => x.updateThermo m T)
      ((kineticLoad m s q).updateMoles m)).density = _
    rw [hdens0]
    exact h2
  have hT2 : s2.temperature = T := rfl
  have hmf : ∀ i, s2.massFractions i = c i * m.molarMass i / q.density := fun i => by
    rw [← hdens]
    rfl
  clear_value s2
  have hmean : ∑ i, s2.massFractions i / m.molarMass i = (∑ i, c i) / q.density := by
    rw [Finset.sum_div]
    refine Finset.sum_congr rfl fun i _ => ?_
    rw [hmf]
    have := ne_of_gt (hM i)
    field_simp
  have hp : s2.pressure m = m.gasConstant * T * ∑ i, c i := by
    unfold ReactorState.pressure ReactorState.meanMolarMass
    rw [div_div_eq_mul_div, div_one, hmean, hdens, hT2]
    field_simp
  have hmom : q'.momentum = q.momentum := by
    rw [hq']
    funext i
    show s2.density * (q.momentum i / q.density) = _
    rw [hdens, mul_div_cancel₀ _ hne]
  have hpr : q'.pressure = s2.pressure m := by rw [hq']; rfl
  refine ⟨by rw [hq']; exact hdens, hmom, by rw [hq']; exact hT2, fun i => ?_, ?_, ?_⟩
  · rw [hq']
    show s2.density * s2.massFractions i = _
    rw [hmf, hdens, mul_div_cancel₀ _ hne]
  · rw [hpr, hp]
  · have he : q'.energy = s2.density * s2.internalEnergy m + igmKinetic s2.density q'.momentum := by
      rw [hq']
      rfl
    rw [he, hmom, hpr, hp, hdens]
    congr 1
    unfold ReactorState.internalEnergy ReactorState.enthalpy ReactorState.meanY
    rw [hmean, hcache.1, htemp, hT2, mul_sub, Finset.mul_sum]
    congr 1
    · refine Finset.sum_congr rfl fun i _ => ?_
      rw [hmf]
      field_simp
    · field_simp

/-- **C130** The energy of a cell is conserved exactly if the concentrations which the solver
returns have the mass and the internal energy of the cell (as exact solutions do, C124) and it
evaluated the right-hand side last at the temperature it returns. The mass of the cell is then the
sum of its partial densities again. -/
theorem kinetic_conserves_partial (m : Mechanism S ℝ) (solver : ℝ → ℝ → (S → ℝ) → OdeRun S ℝ)
    (s : ReactorState S ℝ) (hs : Cached m s) (q : IgmComplete d S) (hρ : 0 < q.density)
    (hM : ∀ i, 0 < m.molarMass i) (hpos : ∀ i, 0 ≤ q.species i)
    (hsum : ∑ i, q.species i = q.density) (l : List ℝ) (T : ℝ) (c : S → ℝ)
    (hrun : solver q.density q.temperature (fun i => q.species i / m.molarMass i) = ⟨l ++ [T], T, c⟩)
    (hmass : ∑ i, c i * m.molarMass i = q.density)
    (henergy : ∑ i, c i * m.molarMass i * ((m.thermo T).1 i - m.gasConstant / m.molarMass i * T) =
      ∑ i, q.species i * ((m.thermo q.temperature).1 i -
        m.gasConstant / m.molarMass i * q.temperature))
    (v : Fin d → ℝ) (Y : S → ℝ) (hq : IsMixture m q.density v Y q.temperature q) :
    let q' := (kineticCell m solver s q).2
    q'.density = q.density ∧ q'.momentum = q.momentum ∧ q'.energy = q.energy ∧
      ∑ i, q'.species i = q.density := by
  intro q'
  obtain ⟨r1, r2, r3, r4, r5, r6⟩ := kinetic_cell_result m solver s hs q hρ hM hpos hsum l T T c hrun
  refine ⟨r1, r2, ?_, ?_⟩
  · have hne := ne_of_gt hρ
    change q'.energy = _ at r6
    rw [r6, r5, hq.energy]
    have e1 : ∑ i, c i * m.molarMass i * (m.thermo T).1 i - m.gasConstant * T * ∑ i, c i =
        ∑ i, c i * m.molarMass i * ((m.thermo T).1 i - m.gasConstant / m.molarMass i * T) := by
      rw [Finset.mul_sum, ← Finset.sum_sub_distrib]
      refine Finset.sum_congr rfl fun i _ => ?_
      have := ne_of_gt (hM i)
      field_simp
    have e2 : q.density * ∑ i, Y i * ((m.thermo q.temperature).1 i -
        m.gasConstant / m.molarMass i * q.temperature) = ∑ i, q.species i *
        ((m.thermo q.temperature).1 i - m.gasConstant / m.molarMass i * q.temperature) := by
      rw [Finset.mul_sum]
      exact Finset.sum_congr rfl fun i _ => by rw [hq.species]; ring
    have e3 : 1 / 2 * (∑ i, q.momentum i * q.momentum i) / q.density =
        1 / 2 * q.density * ∑ i, v i * v i := by
      have := igmKinetic_velocity q.density hne v
      rw [← this, show (fun i => q.density * v i) = q.momentum from
        (funext hq.momentum).symm]
      rfl
    rw [e1, henergy, e2, e3]
  · simp only [show ∀ i, q'.species i = c i * m.molarMass i from r4]
    exact hmass

end

/-- A gas of one species with constant heat capacity which does not react. -/
noncomputable def inertGas : Mechanism Unit ℝ :=
  { molarMass := fun _ => 2, thermo := fun T => (fun _ => 10 * T, fun _ => 10)
    production := fun _ _ _ _ => 0, gasConstant := 8 }

/-- **C130** Without the condition on the last evaluation the energy is not conserved: a solver which
returns the exact solution of a gas that does not react (nothing changes), but evaluated the
right-hand side last at a temperature which is one kelvin higher, as a difference quotient for the
Jacobian does, adds ten units of energy to each unit of mass, in every cell and every step, while
all other members stay. -/
theorem kinetic_energy_drift (s : ReactorState Unit ℝ) (hs : Cached inertGas s) (q : IgmComplete d Unit)
    (v : Fin d → ℝ) (hρ : 0 < q.density)
    (hq : IsMixture inertGas q.density v (fun _ => 1) q.temperature q) :
    let solver : ℝ → ℝ → (Unit → ℝ) → OdeRun Unit ℝ := fun _ T c => ⟨[T, T + 1], T, c⟩
    let q' := (kineticCell inertGas solver s q).2
    q'.temperature = q.temperature ∧ q'.density = q.density ∧ q'.momentum = q.momentum ∧
      q'.species = q.species ∧ q'.pressure = q.pressure ∧ q'.energy = q.energy + 10 * q.density := by
  intro solver q'
  have hsp : ∀ i, q.species i = q.density := fun i => by rw [hq.species, mul_one]
  have hM : ∀ i, 0 < inertGas.molarMass i := fun _ => by show (0 : ℝ) < 2; norm_num
  obtain ⟨r1, r2, r3, r4, r5, r6⟩ := kinetic_cell_result inertGas solver s hs q hρ hM
    (fun i => by rw [hsp]; exact hρ.le) (by simp [hsp]) [q.temperature] (q.temperature + 1)
    q.temperature (fun i => q.species i / inertGas.molarMass i) rfl
  change q'.density = _ at r1
  change q'.momentum = _ at r2
  change q'.temperature = _ at r3
  change ∀ i, q'.species i = _ at r4
  change q'.pressure = _ at r5
  change q'.energy = _ at r6
  have hp : q'.pressure = q.pressure := by
    rw [r5, hq.pressure]
    simp [inertGas, hsp]
    ring
  refine ⟨r3, r1, r2, ?_, hp, ?_⟩
  · funext i
    rw [r4]
    exact div_mul_cancel₀ _ (ne_of_gt (hM i))
  · have e3 : 1 / 2 * (∑ i, q.momentum i * q.momentum i) / q.density =
        1 / 2 * q.density * ∑ i, v i * v i := by
      have := igmKinetic_velocity q.density (ne_of_gt hρ) v
      rw [← this, show (fun i => q.density * v i) = q.momentum from (funext hq.momentum).symm]
      rfl
    rw [r6, e3, hq.energy, hp, hq.pressure]
    simp [inertGas, hsp]
    ring

/-- Non-vacuity: such cells exist. -/
example : ∃ q : IgmComplete 1 Unit, 0 < q.density ∧ Cached inertGas (freshReactor inertGas ()) ∧
    IsMixture inertGas q.density (fun _ => 3) (fun _ => 1) q.temperature q := by
  let s : ReactorState Unit ℝ :=
    { massFractions := fun _ => 1, moles := fun _ => 0, temperature := 300, density := 2
      thermoTemp := 300, enthalpies := (inertGas.thermo 300).1
      heatCapacities := (inertGas.thermo 300).2 }
  refine ⟨igmCompleteFromReactor inertGas s (fun _ => 3), ?_, (fresh_cached inertGas ()).1, ?_⟩
  · show (0 : ℝ) < 2
    norm_num
  · exact igm_complete_from_reactor inertGas s (fun _ => 3) ⟨rfl, rfl⟩ rfl (two_ne_zero : (2 : ℝ) ≠ 0)

end Fub
